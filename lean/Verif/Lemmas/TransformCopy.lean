import Verif.Spec.TransformCopy
import Verif.Lemmas.Transform
/-! Every copy, lossy or not (C19, C20, C22). -/

namespace Verif

variable {V : Type}

theorem reach_trans {h : THeap V} {i j k : Nat} (h1 : Reach h i j) (h2 : Reach h j k) : Reach h i k := by
  induction h2 with
  | self => exact h1
  | step _ ht hk ih => exact .step ih ht hk

theorem Whole.ref {h : THeap V} {r j : Nat} {t} (hw : Whole h r) (ht : h[r]? = some t) (hj : j ∈ t.refs) :
    Whole h j := fun i hi => hw i (reach_trans (.step .self ht hj) hi)

theorem Whole.same {h g : THeap V} {r : Nat} (hw : Whole h r) (hf : TFrame h g) :
    ∀ i, Reach h r i → g[i]? = h[i]? := fun i hi => hf.same i (hw i hi)

theorem reach_same {h g : THeap V} {r : Nat} (hs : ∀ i, Reach h r i → g[i]? = h[i]?) {i : Nat}
    (hi : Reach g r i) : Reach h r i := by
  induction hi with
  | self => exact .self
  | step _ ht hk ih =>
    rw [hs _ ih] at ht
    exact .step ih ht hk

theorem Whole.frame {h g : THeap V} {r : Nat} (hw : Whole h r) (hf : TFrame h g) : Whole g r :=
  fun i hi => Nat.lt_of_lt_of_le (hw i (reach_same (hw.same hf) hi)) hf.len

theorem Whole.eval {h g : THeap V} {r : Nat} (S : TSem V) (hw : Whole h r) (hf : TFrame h g) (n : Nat) :
    evalT S g n r = evalT S h n r :=
  evalT_congr S (A := Reach h r) (hw.same hf) (fun _ hi _ ht _ hj => .step hi ht hj) n r .self

/-- Operands that correspond. -/
def CopyOpd (R : Nat → Nat → Prop) : Opd V → Opd V → Prop
  | .ref x, .ref x' => R x x'
  | .val v, .val v' => v' = v
  | .none, .none => True
  | _, _ => False

/-- The operands of an operator and of its copy: without a transform on the right, the left operand is
shared and the right one is lost. -/
def CopyData (R : Nat → Nat → Prop) (d d' : TData V) : Prop :=
  match d with
  | .arith op l (.ref x) => ∃ l' x', d' = .arith op l' (.ref x') ∧ CopyOpd R l l' ∧ R x x'
  | .arith op l .none => d' = .arith op l .none
  | .arith op l (.val _) => d' = .arith op l .none
  | d => d' = d

/-- `r'` is a copy of `r`, made of transforms from `m` on. -/
def TCopyOf (m : Nat) (h h' : THeap V) : Nat → Nat → Nat → Prop
  | 0, _, _ => False
  | n + 1, r, r' => m ≤ r' ∧ ∃ t t', h[r]? = some t ∧ h'[r']? = some t' ∧ t'.buffer = t.buffer ∧
      (match t.next with
       | none => t'.next = none
       | some x => ∃ x', t'.next = some x' ∧ TCopyOf m h h' n x x') ∧
      CopyData (TCopyOf m h h' n) t.data t'.data

theorem CopyOpd.mono {R R' : Nat → Nat → Prop} {o o' : Opd V} (h : CopyOpd R o o')
    (hr : ∀ x ∈ o.refs, ∀ x', R x x' → R' x x') : CopyOpd R' o o' := by
  cases o <;> cases o' <;> simp only [CopyOpd] at h ⊢
  · exact h
  · exact hr _ (by simp [Opd.refs]) _ h

theorem CopyData.mono {R R' : Nat → Nat → Prop} {t : TNode V} {d' : TData V} (h : CopyData R t.data d')
    (hr : ∀ x ∈ t.refs, ∀ x', R x x' → R' x x') : CopyData R' t.data d' := by
  unfold CopyData at h ⊢
  cases hd : t.data with
  | arith op l r =>
    rw [hd] at h
    cases r with
    | ref x =>
      obtain ⟨l', x', h1, h2, h3⟩ := h
      refine ⟨l', x', h1, h2.mono (fun y hy => hr y ?_), hr x ?_ x' h3⟩
      · simp only [TNode.refs, hd]
        simp [hy]
      · simp only [TNode.refs, hd]
        simp [Opd.refs]
    | _ => exact h
  | _ => rw [hd] at h; exact h

theorem TCopyOf.mono {m m' : Nat} {h h' g g' : THeap V} (hm : m' ≤ m)
    (hg : ∀ i t, m ≤ i → h'[i]? = some t → g'[i]? = some t) : ∀ {n r r' : Nat},
    (∀ i, Reach g r i → h[i]? = g[i]?) → TCopyOf m h h' n r r' → TCopyOf m' g g' n r r' := by
  intro n
  induction n with
  | zero => intro r r' _ h; exact h.elim
  | succ n ih =>
    rintro r r' hs ⟨h1, t, t', h2, h3, h4, h5, h6⟩
    have ht : g[r]? = some t := (hs r .self) ▸ h2
    have hr : ∀ x ∈ t.refs, ∀ x', TCopyOf m h h' n x x' → TCopyOf m' g g' n x x' := by
      intro x hx x' hc
      exact ih (fun i hi => hs i (reach_trans (.step .self ht hx) hi)) hc
    refine ⟨Nat.le_trans hm h1, t, t', ht, hg _ _ h1 h3, h4, ?_, h6.mono hr⟩
    cases hn : t.next with
    | none => rw [hn] at h5; exact h5
    | some x =>
      rw [hn] at h5
      obtain ⟨x', h7, h8⟩ := h5
      exact ⟨x', h7, hr x (by simp [TNode.refs, hn]) x' h8⟩

theorem setNode_above {h : THeap V} {k m : Nat} (hk : k < m) (f) (i : Nat) (t : TNode V) (hi : m ≤ i)
    (ht : h[i]? = some t) : (setNode h k f)[i]? = some t := by
  rw [setNode_ne _ _ (by omega)]
  exact ht

theorem frame_above {h h' : THeap V} (hf : TFrame h h') (m i : Nat) (t : TNode V) (_ : m ≤ i)
    (ht : h[i]? = some t) : h'[i]? = some t := by
  rw [hf.same i (List.getElem?_eq_some_iff.1 ht).1]
  exact ht

/-- Copying one of the transforms that `r` uses, while `k` is being filled. -/
theorem copy_part {S : TSem V} {n : Nat}
    (ih : ∀ (h : THeap V) (r : Nat) (h' : THeap V) (r' : Nat), copyT S n h r = (h', .ok r') → Whole h r →
      TCopyOf h.length h h' n r r') {h g g' : THeap V} {x x' : Nat} (hw : Whole h x) (hf : TFrame h g)
    (hk : h.length < g.length) (hc : copyT S n g x = (g', .ok x')) :
    TCopyOf (h.length + 1) h g' n x x' ∧ TFrame h g' ∧ g'[h.length]? = g[h.length]? ∧ h.length < g'.length := by
  have h1 := ih g x g' x' hc (hw.frame hf)
  have h2 : TFrame g g' := by
    have := copyT_frame S n g x
    rw [hc] at this
    exact this
  exact ⟨h1.mono hk (fun i t _ ht => ht) (hw.same hf), hf.trans h2, h2.same _ hk, Nat.lt_of_lt_of_le hk h2.len⟩

/-- `copyT` makes a copy. -/
theorem copyT_tcopyOf (S : TSem V) : ∀ (n : Nat) (h : THeap V) (r : Nat) (h' : THeap V) (r' : Nat),
    copyT S n h r = (h', .ok r') → Whole h r → TCopyOf h.length h h' n r r' := by
  intro n
  induction n with
  | zero => intro h r h' r' hc _; simp [copyT] at hc
  | succ n ih =>
    intro h r h' r' hc hw
    unfold copyT at hc
    split at hc
    · simp at hc
    rename_i t ht
    dsimp only at hc
    split at hc
    rotate_left
    · simp at hc
    split at hc
    · simp at hc
    rename_i b _
    have hf1 : TFrame h (setNode (h ++ [⟨none, none, t.buffer, t.data.fresh⟩]) h.length
        (fun t => { t with base := some b })) := (TFrame.append h _).set (Nat.le_refl _) _
    have hn1 : (setNode (h ++ [⟨none, none, t.buffer, t.data.fresh⟩]) h.length
        (fun t => { t with base := some b }))[h.length]? =
        some ⟨some b, none, t.buffer, t.data.fresh⟩ := by
      rw [setNode_eq]; simp
    generalize setNode (h ++ [⟨none, none, t.buffer, t.data.fresh⟩]) h.length
      (fun t => { t with base := some b }) = h1 at hc hf1 hn1
    have hl1 := (List.getElem?_eq_some_iff.1 hn1).1
    -- the next transform
    cases hN : copyNext (copyT S n) h1 h.length t.next with
    | mk h2 res =>
      rw [hN] at hc
      cases res with
      | error e => simp at hc
      | ok u =>
        dsimp only at hc
        obtain ⟨nx, hf2, hn2, hnx⟩ : ∃ nx, TFrame h h2 ∧
            h2[h.length]? = some ⟨some b, nx, t.buffer, t.data.fresh⟩ ∧
            (match t.next with
             | none => nx = none
             | some x => ∃ x', nx = some x' ∧ TCopyOf (h.length + 1) h h2 n x x') := by
          cases hnext : t.next with
          | none =>
            rw [hnext] at hN
            simp only [copyNext, Prod.mk.injEq] at hN
            obtain ⟨rfl, _⟩ := hN
            exact ⟨none, hf1, hn1, rfl⟩
          | some x =>
            rw [hnext] at hN
            simp only [copyNext] at hN
            cases hx : copyT S n h1 x with
            | mk g res =>
              rw [hx] at hN
              cases res with
              | error e => simp at hN
              | ok x' =>
                simp only [Prod.mk.injEq] at hN
                obtain ⟨rfl, _⟩ := hN
                obtain ⟨a1, a2, a3, a4⟩ := copy_part ih (hw.ref ht (by simp [TNode.refs, hnext])) hf1 hl1 hx
                refine ⟨some x', a2.set (Nat.le_refl _) _, ?_, x', rfl, ?_⟩
                · rw [setNode_eq, a3, hn1]
                  rfl
                · exact a1.mono (Nat.le_refl _) (setNode_above (Nat.lt_succ_self _) _) (fun _ _ => rfl)
        have hl2 := (List.getElem?_eq_some_iff.1 hn2).1
        cases hD : copyData S (copyT S n) h2 h.length t.data with
        | mk h3 res =>
          rw [hD] at hc
          cases res with
          | error e => simp at hc
          | ok u =>
            simp only [Prod.mk.injEq, Except.ok.injEq] at hc
            obtain ⟨rfl, rfl⟩ := hc
            obtain ⟨d', hn3, hkeep, hd3⟩ : ∃ d', h3[h.length]? = some ⟨some b, nx, t.buffer, d'⟩ ∧
                (∀ i (t : TNode V), h.length + 1 ≤ i → h2[i]? = some t → h3[i]? = some t) ∧
                CopyData (TCopyOf (h.length + 1) h h3 n) t.data d' := by
              cases hdat : t.data with
              | arith op l rt =>
                rw [hdat] at hD hn2
                simp only [copyData] at hD
                cases hL : copyLeft S (copyT S n) h2 h.length l with
                | mk g res =>
                  rw [hL] at hD
                  cases res with
                  | error e => simp at hD
                  | ok u =>
                    dsimp only at hD
                    -- the left operand
                    obtain ⟨l', hfl, hnl, hkl, hcl⟩ : ∃ l', TFrame h g ∧
                        g[h.length]? = some ⟨some b, nx, t.buffer, .arith op l' .none⟩ ∧
                        (∀ i (t : TNode V), h.length + 1 ≤ i → h2[i]? = some t → g[i]? = some t) ∧
                        CopyOpd (TCopyOf (h.length + 1) h g n) l l' := by
                      cases l with
                      | ref x =>
                        simp only [copyLeft] at hL
                        cases hx : copyT S n h2 x with
                        | mk g' res =>
                          rw [hx] at hL
                          cases res with
                          | error e => simp at hL
                          | ok x' =>
                            simp only [Prod.mk.injEq] at hL
                            obtain ⟨rfl, _⟩ := hL
                            obtain ⟨a1, a2, a3, a4⟩ := copy_part ih
                              (hw.ref ht (by simp only [TNode.refs, hdat]; simp [Opd.refs])) hf2 hl2 hx
                            have hfr : TFrame h2 g' := by
                              have := copyT_frame S n h2 x
                              rw [hx] at this
                              exact this
                            refine ⟨.ref x', a2.set (Nat.le_refl _) _, ?_, ?_, ?_⟩
                            · rw [setLeft, setNode_eq, a3, hn2]
                              rfl
                            · intro i t hi hti
                              exact setNode_above (Nat.lt_succ_self _) _ i t hi (frame_above hfr 0 i t (by omega) hti)
                            · exact a1.mono (Nat.le_refl _) (setNode_above (Nat.lt_succ_self _) _) (fun _ _ => rfl)
                      | val v =>
                        simp only [copyLeft, Prod.mk.injEq] at hL
                        obtain ⟨rfl, _⟩ := hL
                        refine ⟨.val v, hf2.set (Nat.le_refl _) _, ?_, setNode_above (Nat.lt_succ_self _) _, rfl⟩
                        rw [setLeft, setNode_eq, hn2]
                        rfl
                      | none =>
                        simp only [copyLeft, Prod.mk.injEq] at hL
                        obtain ⟨rfl, _⟩ := hL
                        refine ⟨.none, hf2.set (Nat.le_refl _) _, ?_, setNode_above (Nat.lt_succ_self _) _, trivial⟩
                        rw [setLeft, setNode_eq, hn2]
                        rfl
                    have hll := (List.getElem?_eq_some_iff.1 hnl).1
                    -- the right operand
                    cases rt with
                    | ref x =>
                      simp only [copyRight] at hD
                      cases hx : copyT S n g x with
                      | mk g' res =>
                        rw [hx] at hD
                        cases res with
                        | error e => simp at hD
                        | ok x' =>
                          simp only [Prod.mk.injEq] at hD
                          obtain ⟨rfl, _⟩ := hD
                          obtain ⟨a1, a2, a3, a4⟩ := copy_part ih
                            (hw.ref ht (by simp only [TNode.refs, hdat]; simp [Opd.refs])) hfl hll hx
                          have hfr : TFrame g g' := by
                            have := copyT_frame S n g x
                            rw [hx] at this
                            exact this
                          have habove : ∀ i (t : TNode V), h.length + 1 ≤ i → g[i]? = some t →
                              (setRight g' h.length (.ref x'))[i]? = some t := by
                            intro i t hi hti
                            exact setNode_above (Nat.lt_succ_self _) _ i t hi (frame_above hfr 0 i t (by omega) hti)
                          refine ⟨.arith op l' (.ref x'), ?_, fun i t hi hti => habove i t hi (hkl i t hi hti),
                            l', x', rfl, ?_, ?_⟩
                          · rw [setRight, setNode_eq, a3, hnl]
                            rfl
                          · refine hcl.mono (fun y _ y' hy => ?_)
                            exact hy.mono (Nat.le_refl _) habove (fun _ _ => rfl)
                          · exact a1.mono (Nat.le_refl _) (setNode_above (Nat.lt_succ_self _) _) (fun _ _ => rfl)
                    | val v =>
                      simp only [copyRight, Prod.mk.injEq] at hD
                      obtain ⟨rfl, _⟩ := hD
                      refine ⟨.arith op l .none, ?_, fun i t hi hti =>
                        setNode_above (Nat.lt_succ_self _) _ i t hi (hkl i t hi hti), rfl⟩
                      rw [setLeft, setNode_eq, hnl]
                      rfl
                    | none =>
                      simp only [copyRight, Prod.mk.injEq] at hD
                      obtain ⟨rfl, _⟩ := hD
                      refine ⟨.arith op l .none, ?_, fun i t hi hti =>
                        setNode_above (Nat.lt_succ_self _) _ i t hi (hkl i t hi hti), rfl⟩
                      rw [setLeft, setNode_eq, hnl]
                      rfl
              | _ =>
                rw [hdat] at hD
                simp only [copyData, Prod.mk.injEq] at hD
                obtain ⟨rfl, _⟩ := hD
                refine ⟨_, ?_, setNode_above (Nat.lt_succ_self _) _, rfl⟩
                rw [setNode_eq, hn2]
                rfl
            have hup : ∀ x x', TCopyOf (h.length + 1) h h2 n x x' → TCopyOf h.length h h3 n x x' := fun x x' hx =>
              hx.mono (Nat.le_succ _) hkeep (fun _ _ => rfl)
            refine ⟨Nat.le_refl _, t, _, ht, hn3, rfl, ?_, hd3.mono (fun x _ x' hx =>
              hx.mono (Nat.le_succ _) (fun _ _ _ h => h) (fun _ _ => rfl))⟩
            cases hnext : t.next with
            | none => rw [hnext] at hnx; exact hnx
            | some x =>
              rw [hnext] at hnx
              obtain ⟨x', h7, h8⟩ := hnx
              exact ⟨x', h7, hup x x' h8⟩

theorem evalOpd_copy {rec rec' : Nat → Except Err V} {R : Nat → Nat → Prop} {o o' : Opd V}
    (ho : CopyOpd R o o') (hr : ∀ x ∈ o.refs, ∀ x', R x x' → rec' x' = rec x) :
    evalOpd rec' o' = evalOpd rec o := by
  cases o <;> cases o' <;> simp only [CopyOpd] at ho
  · rfl
  · subst ho; rfl
  · simp only [evalOpd, hr _ (by simp [Opd.refs]) _ ho]

/-- The value of a copy. -/
theorem TCopyOf.eval (S : TSem V) {m : Nat} {h h' : THeap V} (hf : TFrame h h') : ∀ {n r r' : Nat},
    TCopyOf m h h' n r r' → Whole h r → ∀ f, evalT S h' f r' = evalCopy S h f r := by
  intro n
  induction n with
  | zero => intro r r' hc; exact hc.elim
  | succ n ih =>
    rintro r r' ⟨_, t, t', h1, h2, h3, h4, h5⟩ hw f
    cases f with
    | zero => rfl
    | succ f =>
      have hrec : ∀ x ∈ t.refs, ∀ x', TCopyOf m h h' n x x' → evalT S h' f x' = evalCopy S h f x :=
        fun x hx x' hc => ih hc (hw.ref h1 hx) f
      have harg : evalArg (evalT S h' f) t' = evalArg (evalCopy S h f) t := by
        unfold evalArg
        cases hn : t.next with
        | none => rw [hn] at h4; rw [h4]; simp only [h3]
        | some x =>
          rw [hn] at h4
          obtain ⟨x', h6, h7⟩ := h4
          rw [h6]
          simp only [hrec x (by simp [TNode.refs, hn]) x' h7]
      unfold evalT evalCopy
      rw [h1, h2]
      dsimp only
      unfold CopyData at h5
      cases hd : t.data with
      | arith op l rt =>
        rw [hd] at h5
        have hl : ∀ {l0 : Opd V}, l0 = l → evalOpd (evalT S h' f) l0 = evalOpd (evalT S h f) l := by
          rintro _ rfl
          refine evalOpd_congr (fun j hj => ?_)
          exact (hw.ref h1 (by simp only [TNode.refs, hd]; simp [hj])).eval S hf f
        have hnone : evalOpd (evalT S h' f) (.none : Opd V) = .ok none := rfl
        cases rt with
        | ref x =>
          obtain ⟨l', x', h6, h7, h8⟩ := h5
          have e1 := evalOpd_copy h7 (fun y hy => hrec y (by simp only [TNode.refs, hd]; simp [hy]))
          have e2 := hrec x (by simp only [TNode.refs, hd]; simp [Opd.refs]) x' h8
          have e3 : evalOpd (evalT S h' f) (.ref x') = evalOpd (evalCopy S h f) (.ref x) := by
            simp only [evalOpd, e2]
          simp only [evalNode, h6, hd, e1, e3]
        | val v =>
          dsimp only at h5 ⊢
          simp only [evalNode, h5, hl rfl, hnone]
          cases evalOpd (evalT S h f) l with
          | error e => rfl
          | ok a => cases a <;> rfl
        | none =>
          dsimp only at h5 ⊢
          simp only [evalNode, h5, hl rfl, hnone]
          cases evalOpd (evalT S h f) l with
          | error e => rfl
          | ok a => cases a <;> rfl
      | _ => rw [hd] at h5; simp only [evalNode, h5, hd, harg]

theorem reach_first {h : THeap V} {r i : Nat} (hr : Reach h r i) :
    i = r ∨ ∃ t j, h[r]? = some t ∧ j ∈ t.refs ∧ Reach h j i := by
  induction hr with
  | self => exact .inl rfl
  | @step j k t h1 ht hk ih =>
    rcases ih with rfl | ⟨t0, j0, h2, h3, h4⟩
    · exact .inr ⟨t, k, ht, hk, .self⟩
    · exact .inr ⟨t0, j0, h2, h3, .step h4 ht hk⟩

theorem whole_of_refs {h : THeap V} {r : Nat} {t : TNode V} (ht : h[r]? = some t)
    (hr : ∀ j ∈ t.refs, Whole h j) : Whole h r := by
  intro i hi
  rcases reach_first hi with rfl | ⟨t0, j, h1, h2, h3⟩
  · exact (List.getElem?_eq_some_iff.1 ht).1
  · rw [ht] at h1
    cases h1
    exact hr j h2 i h3

/-- All that a copy uses exists. -/
theorem TCopyOf.whole {m : Nat} {h h' : THeap V} (hf : TFrame h h') : ∀ {n r r' : Nat},
    TCopyOf m h h' n r r' → Whole h r → Whole h' r' := by
  intro n
  induction n with
  | zero => intro r r' hc; exact hc.elim
  | succ n ih =>
    rintro r r' ⟨_, t, t', h1, h2, _, h4, h5⟩ hw
    refine whole_of_refs h2 (fun j hj => ?_)
    simp only [TNode.refs, List.mem_append] at hj
    rcases hj with hj | hj
    · cases hn : t.next with
      | none => rw [hn] at h4; rw [h4] at hj; simp at hj
      | some x =>
        rw [hn] at h4
        obtain ⟨x', h6, h7⟩ := h4
        rw [h6] at hj
        simp only [Option.toList_some, List.mem_singleton] at hj
        subst hj
        exact ih h7 (hw.ref h1 (by simp [TNode.refs, hn]))
    · unfold CopyData at h5
      cases hd : t.data with
      | arith op l rt =>
        rw [hd] at h5
        have hshared : ∀ y ∈ l.refs, Whole h' y := fun y hy =>
          (hw.ref h1 (by simp only [TNode.refs, hd]; simp [hy])).frame hf
        cases rt with
        | ref x =>
          obtain ⟨l', x', h6, h7, h8⟩ := h5
          rw [h6] at hj
          simp only [List.mem_append] at hj
          rcases hj with hj | hj
          · cases l <;> cases l' <;> simp only [CopyOpd] at h7 <;> simp only [Opd.refs, List.not_mem_nil,
              List.mem_singleton] at hj
            subst hj
            exact ih h7 (hw.ref h1 (by simp only [TNode.refs, hd]; simp [Opd.refs]))
          · simp only [Opd.refs, List.mem_singleton] at hj
            subst hj
            exact ih h8 (hw.ref h1 (by simp only [TNode.refs, hd]; simp [Opd.refs]))
        | val v =>
          dsimp only at h5
          rw [h5] at hj
          simp only [Opd.refs, List.append_nil] at hj
          exact hshared j hj
        | none =>
          dsimp only at h5
          rw [h5] at hj
          simp only [Opd.refs, List.append_nil] at hj
          exact hshared j hj
      | _ => rw [hd] at h5; dsimp only at h5; rw [h5] at hj; simp at hj

/-- The value of a copy of a copy. -/
theorem TCopyOf.evalCopy (S : TSem V) {m : Nat} {h h' : THeap V} (hf : TFrame h h') : ∀ {n r r' : Nat},
    TCopyOf m h h' n r r' → Whole h r → ∀ f, Verif.evalCopy S h' f r' = Verif.evalCopy S h f r := by
  intro n
  induction n with
  | zero => intro r r' hc; exact hc.elim
  | succ n ih =>
    rintro r r' ⟨_, t, t', h1, h2, h3, h4, h5⟩ hw f
    cases f with
    | zero => rfl
    | succ f =>
      have hrec : ∀ x ∈ t.refs, ∀ x', TCopyOf m h h' n x x' →
          Verif.evalCopy S h' f x' = Verif.evalCopy S h f x := fun x hx x' hc => ih hc (hw.ref h1 hx) f
      have harg : evalArg (Verif.evalCopy S h' f) t' = evalArg (Verif.evalCopy S h f) t := by
        unfold evalArg
        cases hn : t.next with
        | none => rw [hn] at h4; rw [h4]; simp only [h3]
        | some x =>
          rw [hn] at h4
          obtain ⟨x', h6, h7⟩ := h4
          rw [h6]
          simp only [hrec x (by simp [TNode.refs, hn]) x' h7]
      unfold Verif.evalCopy
      rw [h1, h2]
      dsimp only
      unfold CopyData at h5
      cases hd : t.data with
      | arith op l rt =>
        rw [hd] at h5
        have hl : evalOpd (evalT S h' f) l = evalOpd (evalT S h f) l := by
          refine evalOpd_congr (fun j hj => ?_)
          exact (hw.ref h1 (by simp only [TNode.refs, hd]; simp [hj])).eval S hf f
        cases rt with
        | ref x =>
          obtain ⟨l', x', h6, h7, h8⟩ := h5
          have e1 := evalOpd_copy h7 (fun y hy => hrec y (by simp only [TNode.refs, hd]; simp [hy]))
          have e2 := hrec x (by simp only [TNode.refs, hd]; simp [Opd.refs]) x' h8
          have e3 : evalOpd (Verif.evalCopy S h' f) (.ref x') = evalOpd (Verif.evalCopy S h f) (.ref x) := by
            simp only [evalOpd, e2]
          simp only [evalNode, h6, hd, e1, e3]
        | val v =>
          dsimp only at h5 ⊢
          simp only [h5, hl]
        | none =>
          dsimp only at h5 ⊢
          simp only [h5, hl]
      | _ => rw [hd] at h5; dsimp only at h5; simp only [evalNode, h5, hd, harg]

theorem Whole.evalCopy {h g : THeap V} (S : TSem V) (hf : TFrame h g) : ∀ (n : Nat) {r : Nat},
    Whole h r → Verif.evalCopy S g n r = Verif.evalCopy S h n r := by
  intro n
  induction n with
  | zero => intro r _; rfl
  | succ n ih =>
    intro r hw
    unfold Verif.evalCopy
    rw [hf.same r (hw r .self)]
    cases ht : h[r]? with
    | none => rfl
    | some t =>
      dsimp only
      have hE : evalNode S (Verif.evalCopy S g n) t = evalNode S (Verif.evalCopy S h n) t :=
        evalNode_congr S (fun j hj => ih (hw.ref ht hj))
      cases hd : t.data with
      | arith op l rt =>
        have hl : evalOpd (evalT S g n) l = evalOpd (evalT S h n) l := by
          refine evalOpd_congr (fun j hj => ?_)
          exact (hw.ref ht (by simp only [TNode.refs, hd]; simp [hj])).eval S hf n
        cases rt <;> dsimp only
        · rw [hl]
        · rw [hl]
        · exact hE
      | _ => exact hE

/-- The operands of a new operator. -/
theorem initOpd_copy {S : TSem V} {n : Nat} {h g g' : THeap V} {o o' : Opd V}
    (hw : ∀ x ∈ o.refs, Whole h x) (hf : TFrame h g) (hk : h.length < g.length)
    (hc : initOpd S n g o = (g', .ok o')) :
    CopyOpd (TCopyOf (h.length + 1) h g' n) o o' ∧ TFrame h g' ∧ TFrame g g' ∧
      g'[h.length]? = g[h.length]? ∧ h.length < g'.length := by
  cases o with
  | ref x =>
    simp only [initOpd] at hc
    cases hx : copyT S n g x with
    | mk g1 res =>
      rw [hx] at hc
      cases res with
      | error e => simp at hc
      | ok x' =>
        simp only [Prod.mk.injEq, Except.ok.injEq] at hc
        obtain ⟨rfl, rfl⟩ := hc
        obtain ⟨a1, a2, a3, a4⟩ := copy_part (copyT_tcopyOf S n) (hw x (by simp [Opd.refs])) hf hk hx
        have hfr : TFrame g g1 := by
          have := copyT_frame S n g x
          rw [hx] at this
          exact this
        exact ⟨a1, a2, hfr, a3, a4⟩
  | val v =>
    simp only [initOpd, Prod.mk.injEq, Except.ok.injEq] at hc
    obtain ⟨rfl, rfl⟩ := hc
    exact ⟨rfl, hf, TFrame.refl _, rfl, hk⟩
  | none =>
    simp only [initOpd, Prod.mk.injEq, Except.ok.injEq] at hc
    obtain ⟨rfl, rfl⟩ := hc
    exact ⟨trivial, hf, TFrame.refl _, rfl, hk⟩

/-- The value of a new operator. -/
theorem newArith_value (S : TSem V) {n : Nat} {h h' : THeap V} {op l rt r'}
    (hl : ∀ x ∈ l.refs, Whole h x) (hr : ∀ x ∈ rt.refs, Whole h x)
    (hc : newArith S n h op l rt = (h', .ok r')) : ∀ f, evalT S h' (f + 1) r' =
      match opdCopy S h f l with
      | .error e => .error e
      | .ok a => match opdCopy S h f rt with
        | .error e => .error e
        | .ok b => arithVal S op a b := by
  unfold newArith at hc
  dsimp only at hc
  have hf0 := TFrame.append h (⟨none, none, none, .arith op .none .none⟩ : TNode V)
  have hn0 : (h ++ [(⟨none, none, none, .arith op .none .none⟩ : TNode V)])[h.length]? =
      some ⟨none, none, none, .arith op .none .none⟩ := by simp
  generalize h ++ [(⟨none, none, none, .arith op .none .none⟩ : TNode V)] = h0 at hc hf0 hn0
  have hk0 := (List.getElem?_eq_some_iff.1 hn0).1
  cases hL : initOpd S n h0 l with
  | mk h1 res =>
    rw [hL] at hc
    cases res with
    | error e => simp at hc
    | ok l' =>
      dsimp only at hc
      obtain ⟨a1, a2, a3, a4, a5⟩ := initOpd_copy hl hf0 hk0 hL
      have hf1 : TFrame h (setLeft h1 h.length l') := a2.set (Nat.le_refl _) _
      have hn1 : (setLeft h1 h.length l')[h.length]? = some ⟨none, none, none, .arith op l' .none⟩ := by
        rw [setLeft, setNode_eq, a4, hn0]
        rfl
      have hab1 : ∀ i (t : TNode V), h.length + 1 ≤ i → h1[i]? = some t →
          (setLeft h1 h.length l')[i]? = some t := setNode_above (Nat.lt_succ_self _) _
      generalize setLeft h1 h.length l' = h2 at hc hf1 hn1 hab1
      cases hR : initOpd S n h2 rt with
      | mk h3 res =>
        rw [hR] at hc
        cases res with
        | error e => simp at hc
        | ok rt' =>
          dsimp only at hc
          split at hc
          rotate_left
          · simp at hc
          simp only [Prod.mk.injEq, Except.ok.injEq] at hc
          obtain ⟨rfl, rfl⟩ := hc
          obtain ⟨b1, b2, b3, b4, b5⟩ := initOpd_copy hr hf1 (List.getElem?_eq_some_iff.1 hn1).1 hR
          have hf3 : TFrame h (setRight h3 h.length rt') := b2.set (Nat.le_refl _) _
          have hn3 : (setRight h3 h.length rt')[h.length]? = some ⟨none, none, none, .arith op l' rt'⟩ := by
            rw [setRight, setNode_eq, b4, hn1]
            rfl
          have hab3 : ∀ i (t : TNode V), h.length + 1 ≤ i → h3[i]? = some t →
              (setRight h3 h.length rt')[i]? = some t := setNode_above (Nat.lt_succ_self _) _
          intro f
          have e1 : evalOpd (evalT S (setRight h3 h.length rt') f) l' = opdCopy S h f l := by
            refine evalOpd_copy a1 (fun x hx x' hxx => ?_)
            have hxx' : TCopyOf (h.length + 1) h (setRight h3 h.length rt') n x x' :=
              hxx.mono (Nat.le_refl _) (fun i t hi hti =>
                hab3 i t hi (frame_above b3 0 i t (by omega) (hab1 i t hi hti))) (fun _ _ => rfl)
            exact hxx'.eval S hf3 (hl x hx) f
          have e2 : evalOpd (evalT S (setRight h3 h.length rt') f) rt' = opdCopy S h f rt := by
            refine evalOpd_copy b1 (fun x hx x' hxx => ?_)
            have hxx' : TCopyOf (h.length + 1) h (setRight h3 h.length rt') n x x' :=
              hxx.mono (Nat.le_refl _) hab3 (fun _ _ => rfl)
            exact hxx'.eval S hf3 (hr x hx) f
          conv => lhs; unfold evalT
          rw [hn3]
          simp only [evalNode, e1, e2]
          cases opdCopy S h f l with
          | error e => rfl
          | ok a => cases opdCopy S h f rt <;> rfl

/-- `a(b)` for a transform of one argument. -/
theorem callT_value (S : TSem V) {n : Nat} {h h' : THeap V} {a b r' : Nat} {t : TNode V}
    (ha : Whole h a) (hb : Whole h b) (ht : h[a]? = some t) (hu : t.data.unary = true)
    (hc : callT S n h a (.ref b) = (h', .ok r')) :
    ∃ bs o', h'[r']? = some ⟨bs, some o', none, t.data⟩ ∧ Whole h' o' ∧
      ∀ f, evalT S h' f o' = Verif.evalCopy S h f b := by
  unfold callT at hc
  rw [ht] at hc
  dsimp only at hc
  have hc' : (match copyT S n h a with
      | (h, .error e) => (h, .error e)
      | (h, .ok r') => match copyT S n h b with
          | (h, .error e) => (h, .error e)
          | (h, .ok o') =>
            (setNode h r' (fun t => { t with next := some o', buffer := none }), .ok r') : TRes V Nat) =
      (h', .ok r') := by
    cases hd : t.data <;> rw [hd] at hc hu <;> simp [TData.unary] at hu <;> exact hc
  clear hc
  cases hA : copyT S n h a with
  | mk h1 res =>
    rw [hA] at hc'
    cases res with
    | error e => simp at hc'
    | ok r1 =>
      dsimp only at hc'
      have hf1 : TFrame h h1 := by
        have := copyT_frame S n h a
        rw [hA] at this
        exact this
      cases hB : copyT S n h1 b with
      | mk h2 res =>
        rw [hB] at hc'
        cases res with
        | error e => simp at hc'
        | ok o' =>
          simp only [Prod.mk.injEq, Except.ok.injEq] at hc'
          obtain ⟨rfl, rfl⟩ := hc'
          have hf2 : TFrame h1 h2 := by
            have := copyT_frame S n h1 b
            rw [hB] at this
            exact this
          have hidx := copyT_index S hA
          have hcA := copyT_tcopyOf S n h a h1 r1 hA ha
          cases n with
          | zero => exact hcA.elim
          | succ n =>
            obtain ⟨_, t0, t', k1, k2, _, _, k5⟩ := hcA
            rw [ht] at k1
            cases k1
            have hdat : t'.data = t.data := by
              unfold CopyData at k5
              cases hd : t.data <;> rw [hd] at k5 hu <;> simp [TData.unary] at hu <;> exact k5
            have hlt := (List.getElem?_eq_some_iff.1 k2).1
            have hcB := copyT_tcopyOf S (n + 1) h1 b h2 o' hB (hb.frame hf1)
            have hcB' : TCopyOf h1.length h1
                (setNode h2 r1 (fun t => { t with next := some o', buffer := none })) (n + 1) b o' :=
              hcB.mono (Nat.le_refl _) (setNode_above hlt _) (fun _ _ => rfl)
            have hfin : TFrame h (setNode h2 r1 (fun t => { t with next := some o', buffer := none })) :=
              (hf1.trans hf2).set (Nat.le_of_eq hidx.symm) _
            have hcB2 : TCopyOf h1.length h
                (setNode h2 r1 (fun t => { t with next := some o', buffer := none })) (n + 1) b o' :=
              hcB'.mono (Nat.le_refl _) (fun _ _ _ h => h) (hb.same hf1)
            refine ⟨t'.base, o', ?_, hcB2.whole hfin hb, hcB2.eval S hfin hb⟩
            rw [setNode_eq, hf2.same r1 hlt, k2, ← hdat]
            rfl

theorem evalOpd_ok {rec : Nat → Except Err V} {o : Opd V} {a : Option V} (h : evalOpd rec o = .ok a) :
    ∀ x ∈ o.refs, ∃ v, rec x = .ok v := by
  intro x hx
  cases o <;> simp only [Opd.refs, List.not_mem_nil, List.mem_singleton] at hx
  subst hx
  simp only [evalOpd] at h
  cases hr : rec x with
  | error e => rw [hr] at h; cases h
  | ok v => exact ⟨v, rfl⟩

/-- What is evaluated on the way to a value has a value. -/
theorem evalNode_ok (S : TSem V) {rec : Nat → Except Err V} {t : TNode V} {v : V}
    (h : evalNode S rec t = .ok v) : ∀ x ∈ t.evaluates, ∃ u, rec x = .ok u := by
  intro x hx
  have harg : ∀ a, evalArg rec t = .ok a → x ∈ t.next.toList → ∃ u, rec x = .ok u := by
    intro a ha hx
    unfold evalArg at ha
    cases hn : t.next with
    | none => rw [hn] at hx; simp at hx
    | some y =>
      rw [hn] at hx ha
      simp only [Option.toList_some, List.mem_singleton] at hx
      subst hx
      dsimp only at ha
      cases hr : rec x with
      | error e => rw [hr] at ha; cases ha
      | ok u => exact ⟨u, rfl⟩
  unfold evalNode at h
  unfold TNode.evaluates at hx
  cases hd : t.data with
  | transform => rw [hd] at hx; simp at hx
  | out name => rw [hd] at hx; simp at hx
  | arith op l r =>
    rw [hd] at h hx
    dsimp only at h hx
    cases hl : evalOpd rec l with
    | error e => rw [hl] at h; cases h
    | ok a =>
      rw [hl] at h
      dsimp only at h
      cases hr : evalOpd rec r with
      | error e => rw [hr] at h; cases h
      | ok b =>
        rcases List.mem_append.1 hx with hx | hx
        · exact evalOpd_ok hl x hx
        · exact evalOpd_ok hr x hx
  | accessor own key =>
    rw [hd] at h hx
    dsimp only at h hx
    cases ha : evalArg rec t with
    | error e => rw [ha] at h; cases h
    | ok a => exact harg a ha hx
  | measure u =>
    rw [hd] at h hx
    dsimp only at h hx
    split at h
    · cases ha : evalArg rec t with
      | error e => rw [ha] at h; cases h
      | ok a => exact harg a ha hx
    · cases h
  | colormap c lo hi =>
    rw [hd] at h hx
    dsimp only at h hx
    cases ha : evalArg rec t with
    | error e => rw [ha] at h; cases h
    | ok a => exact harg a ha hx

theorem usedBy_first {h : THeap V} {r i : Nat} (hr : UsedBy h r i) :
    i = r ∨ ∃ t j, h[r]? = some t ∧ j ∈ t.evaluates ∧ UsedBy h j i := by
  induction hr with
  | self => exact .inl rfl
  | @step j k t h1 ht hk ih =>
    rcases ih with rfl | ⟨t0, j0, h2, h3, h4⟩
    · exact .inr ⟨t, k, ht, hk, .self⟩
    · exact .inr ⟨t0, j0, h2, h3, .step h4 ht hk⟩

theorem usedBy_cons {h : THeap V} {r j i : Nat} {t} (ht : h[r]? = some t) (hj : j ∈ t.evaluates)
    (hi : UsedBy h j i) : UsedBy h r i := by
  induction hi with
  | self => exact .step .self ht hj
  | step _ h1 h2 ih => exact .step ih h1 h2

/-- When a transform has a value: its copy has this value when no operator with a number on the right is
evaluated, and raises `TypeError` when there is one. -/
theorem evalCopy_cases (S : TSem V) (h : THeap V) : ∀ (f r : Nat) (v : V), evalT S h f r = .ok v →
    (evalCopy S h f r = .ok v ∧ ∀ i, UsedBy h r i → ¬ HasNumber h i) ∨
    (evalCopy S h f r = .error .typeError ∧ ∃ i, UsedBy h r i ∧ HasNumber h i) := by
  intro f
  induction f with
  | zero => intro r v hv; cases hv
  | succ f ih =>
    intro r v hv
    unfold evalT at hv
    cases ht : h[r]? with
    | none => rw [ht] at hv; cases hv
    | some t =>
      rw [ht] at hv
      dsimp only at hv
      have hok := evalNode_ok S hv
      have hrec : ∀ x ∈ t.evaluates, (∃ u, evalT S h f x = .ok u ∧
          ((evalCopy S h f x = .ok u ∧ ∀ i, UsedBy h x i → ¬ HasNumber h i) ∨
          (evalCopy S h f x = .error .typeError ∧ ∃ i, UsedBy h x i ∧ HasNumber h i))) := by
        intro x hx
        obtain ⟨u, hu⟩ := hok x hx
        exact ⟨u, hu, ih x u hu⟩
      -- all evaluated parts keep their values, or one of them raises
      have hall : (∀ x ∈ t.evaluates, evalCopy S h f x = evalT S h f x ∧ ∀ i, UsedBy h x i → ¬ HasNumber h i) →
          ¬ HasNumber h r → evalNode S (evalCopy S h f) t = .ok v →
          (evalNode S (evalCopy S h f) t = .ok v ∧ ∀ i, UsedBy h r i → ¬ HasNumber h i) := by
        intro h1 h2 h3
        refine ⟨h3, fun i hi => ?_⟩
        rcases usedBy_first hi with rfl | ⟨t0, j, k1, k2, k3⟩
        · exact h2
        · rw [ht] at k1
          cases k1
          exact (h1 j k2).2 i k3
      unfold evalCopy
      rw [ht]
      dsimp only
      -- transforms of one argument
      have hone : (∀ op l rt, t.data ≠ .arith op l rt) →
          (evalNode S (evalCopy S h f) t = .ok v ∧ ∀ i, UsedBy h r i → ¬ HasNumber h i) ∨
          (evalNode S (evalCopy S h f) t = .error .typeError ∧ ∃ i, UsedBy h r i ∧ HasNumber h i) := by
        intro hna
        have hnum : ¬ HasNumber h r := by
          rintro ⟨t0, op, l, w, k1, k2⟩
          rw [ht] at k1
          cases k1
          exact hna _ _ _ k2
        by_cases hgood : ∀ x ∈ t.evaluates, evalCopy S h f x = evalT S h f x ∧ ∀ i, UsedBy h x i → ¬ HasNumber h i
        · left
          refine hall hgood hnum ?_
          rw [← hv]
          have harg : (∀ x ∈ t.next.toList, evalCopy S h f x = evalT S h f x) →
              evalArg (evalCopy S h f) t = evalArg (evalT S h f) t := fun hx => evalArg_congr hx
          unfold evalNode
          unfold TNode.evaluates at hgood
          cases hd : t.data with
          | arith op l rt => exact absurd hd (hna _ _ _)
          | transform => rfl
          | out name => rfl
          | _ =>
            rw [hd] at hgood
            simp only [harg (fun x hx => (hgood x hx).1)]
        · right
          obtain ⟨x, hx, hbad⟩ : ∃ x ∈ t.evaluates, ¬ (evalCopy S h f x = evalT S h f x ∧
              ∀ i, UsedBy h x i → ¬ HasNumber h i) := by
            refine Classical.byContradiction fun hne => hgood fun x hx => ?_
            exact Classical.byContradiction fun hc => hne ⟨x, hx, hc⟩
          obtain ⟨u, hu, hcase⟩ := hrec x hx
          rcases hcase with ⟨k1, k2⟩ | ⟨k1, i, k2, k3⟩
          · exact absurd ⟨k1.trans hu.symm, k2⟩ hbad
          · refine ⟨?_, i, usedBy_cons ht hx k2, k3⟩
            unfold TNode.evaluates at hx
            have harg : x ∈ t.next.toList → evalArg (evalCopy S h f) t = .error .typeError := by
              intro hx
              unfold evalArg
              cases hn : t.next with
              | none => rw [hn] at hx; simp at hx
              | some y =>
                rw [hn] at hx
                simp only [Option.toList_some, List.mem_singleton] at hx
                subst hx
                simp only [k1]
            unfold evalNode at hv ⊢
            cases hd : t.data with
            | arith op l rt => exact absurd hd (hna _ _ _)
            | transform => rw [hd] at hx; simp at hx
            | out name => rw [hd] at hx; simp at hx
            | accessor own key => rw [hd] at hx; simp only [harg hx]
            | colormap c lo hi => rw [hd] at hx; simp only [harg hx]
            | measure u =>
              rw [hd] at hx hv
              dsimp only at hv ⊢
              split at hv
              · rename_i hdpi
                rw [if_pos hdpi, harg hx]
              · cases hv
      cases hd : t.data with
      | arith op l rt =>
        have hve : evalNode S (evalT S h f) t = .ok v := hv
        unfold evalNode at hv
        rw [hd] at hv
        dsimp only at hv
        cases hl : evalOpd (evalT S h f) l with
        | error e => rw [hl] at hv; cases hv
        | ok a =>
          rw [hl] at hv
          dsimp only at hv
          cases hr : evalOpd (evalT S h f) rt with
          | error e => rw [hr] at hv; cases hv
          | ok b =>
            rw [hr] at hv
            dsimp only at hv
            cases rt with
            | none =>
              simp only [evalOpd, Except.ok.injEq] at hr
              subst hr
              cases a <;> simp [arithVal] at hv
            | val w =>
              right
              exact ⟨by simp only [hl], r, .self, t, op, l, w, ht, hd⟩
            | ref y =>
              dsimp only
              have hev : t.evaluates = l.refs ++ [y] := by simp only [TNode.evaluates, hd, Opd.refs]
              have hnum : ¬ HasNumber h r := by
                rintro ⟨t0, op', l', w, k1, k2⟩
                rw [ht] at k1
                cases k1
                rw [hd] at k2
                cases k2
              obtain ⟨u, hu, hy⟩ := hrec y (by rw [hev]; simp)
              have hunf : evalNode S (evalCopy S h f) t =
                  (match evalOpd (evalCopy S h f) l with
                   | .error e => .error e
                   | .ok a => match evalOpd (evalCopy S h f) (.ref y) with
                     | .error e => .error e
                     | .ok b => arithVal S op a b) := by
                simp only [evalNode, hd]
                cases evalOpd (evalCopy S h f) l with
                | error e => rfl
                | ok a => cases evalOpd (evalCopy S h f) (.ref y) <;> rfl
              have hbu : b = some u := by
                simp only [evalOpd, hu, Except.ok.injEq] at hr
                exact hr.symm
              have hleft : (evalOpd (evalCopy S h f) l = .ok a ∧
                    ∀ x ∈ l.refs, evalCopy S h f x = evalT S h f x ∧ ∀ i, UsedBy h x i → ¬ HasNumber h i) ∨
                  (evalOpd (evalCopy S h f) l = .error .typeError ∧ ∃ x ∈ l.refs, ∃ i, UsedBy h x i ∧ HasNumber h i) := by
                cases l with
                | ref x =>
                  obtain ⟨u', hu', hx⟩ := hrec x (by rw [hev]; simp [Opd.refs])
                  have ha : a = some u' := by
                    simp only [evalOpd, hu', Except.ok.injEq] at hl
                    exact hl.symm
                  rcases hx with ⟨k1, k2⟩ | ⟨k1, i, k2, k3⟩
                  · left
                    refine ⟨by simp only [evalOpd, k1, ha], fun z hz => ?_⟩
                    simp only [Opd.refs, List.mem_singleton] at hz
                    subst hz
                    exact ⟨k1.trans hu'.symm, k2⟩
                  · right
                    exact ⟨by simp only [evalOpd, k1], x, by simp [Opd.refs], i, k2, k3⟩
                | val w => exact .inl ⟨hl, by simp [Opd.refs]⟩
                | none => exact .inl ⟨hl, by simp [Opd.refs]⟩
              rcases hleft with ⟨k1, k2⟩ | ⟨k1, x, hx, i, k2, k3⟩
              · rcases hy with ⟨k3, k4⟩ | ⟨k3, i, k4, k5⟩
                · left
                  refine hall ?_ hnum ?_
                  · intro z hz
                    rw [hev] at hz
                    rcases List.mem_append.1 hz with hz | hz
                    · exact k2 z hz
                    · simp only [List.mem_singleton] at hz
                      subst hz
                      exact ⟨k3.trans hu.symm, k4⟩
                  · rw [hunf, k1]
                    simp only [evalOpd, k3]
                    rw [hbu] at hv
                    exact hv
                · right
                  refine ⟨?_, i, usedBy_cons ht (by rw [hev]; simp) k4, k5⟩
                  rw [hunf, k1]
                  simp only [evalOpd, k3]
              · right
                refine ⟨?_, i, usedBy_cons ht (by rw [hev]; simp [hx]) k2, k3⟩
                rw [hunf, k1]
      | transform => exact hone (by rw [hd]; intros; simp)
      | accessor own key => exact hone (by rw [hd]; intros; simp)
      | measure u => exact hone (by rw [hd]; intros; simp)
      | colormap c lo hi => exact hone (by rw [hd]; intros; simp)
      | out name => exact hone (by rw [hd]; intros; simp)

end Verif
