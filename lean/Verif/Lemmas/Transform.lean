import Verif.Spec.Transform

namespace Verif

variable {V : Type}

/-! ### Frames -/

structure TFrame (h h' : THeap V) : Prop where
  len : h.length ≤ h'.length
  same : Unchanged h h'

theorem TFrame.refl (h : THeap V) : TFrame h h := ⟨Nat.le_refl _, fun _ _ => rfl⟩

theorem TFrame.trans {a b c : THeap V} (h : TFrame a b) (h' : TFrame b c) : TFrame a c :=
  ⟨Nat.le_trans h.len h'.len, fun i hi =>
    (h'.same i (Nat.lt_of_lt_of_le hi h.len)).trans (h.same i hi)⟩

theorem TFrame.append (h : THeap V) (t : TNode V) : TFrame h (h ++ [t]) :=
  ⟨by simp, fun i hi => by rw [List.getElem?_append_left hi]⟩

theorem setNode_length (h : THeap V) (r f) : (setNode h r f).length = h.length := by
  simp [setNode]

theorem setNode_ne (h : THeap V) {r i : Nat} (f) (hi : r ≠ i) : (setNode h r f)[i]? = h[i]? := by
  simp only [setNode, List.getElem?_modify, if_neg hi]
  simp

theorem setNode_eq (h : THeap V) (r : Nat) (f) : (setNode h r f)[r]? = h[r]?.map f := by
  simp [setNode, List.getElem?_modify]

theorem TFrame.set {h h' : THeap V} (hf : TFrame h h') {r : Nat} (hr : h.length ≤ r) (f) :
    TFrame h (setNode h' r f) :=
  ⟨by rw [setNode_length]; exact hf.len, fun i hi => by
    rw [setNode_ne _ _ (by omega)]; exact hf.same i hi⟩

section
variable (S : TSem V)

theorem copyNext_frame {rec : THeap V → Nat → TRes V Nat} (hrec : ∀ h x, TFrame h (rec h x).1)
    {h0 h : THeap V} (hf : TFrame h0 h) {r : Nat} (hr : h0.length ≤ r) (o) :
    TFrame h0 (copyNext rec h r o).1 := by
  cases o with
  | none => exact hf
  | some x =>
    have := hrec h x
    simp only [copyNext]
    generalize rec h x = rc at this
    obtain ⟨h', res⟩ := rc
    cases res with
    | error e => exact hf.trans this
    | ok x' => exact (hf.trans this).set hr _

theorem setLeft_frame {h0 h : THeap V} (hf : TFrame h0 h) {r : Nat} (hr : h0.length ≤ r) (o) :
    TFrame h0 (setLeft h r o) := hf.set hr _

theorem setRight_frame {h0 h : THeap V} (hf : TFrame h0 h) {r : Nat} (hr : h0.length ≤ r) (o) :
    TFrame h0 (setRight h r o) := hf.set hr _

theorem copyLeft_frame {rec : THeap V → Nat → TRes V Nat} (hrec : ∀ h x, TFrame h (rec h x).1)
    {h0 h : THeap V} (hf : TFrame h0 h) {r : Nat} (hr : h0.length ≤ r) (o) :
    TFrame h0 (copyLeft S rec h r o).1 := by
  cases o with
  | ref x =>
    have := hrec h x
    simp only [copyLeft]
    generalize rec h x = rc at this
    obtain ⟨h', res⟩ := rc
    cases res with
    | error e => exact hf.trans this
    | ok x' => exact setLeft_frame (hf.trans this) hr _
  | _ => exact setLeft_frame hf hr _

theorem copyRight_frame {rec : THeap V → Nat → TRes V Nat} (hrec : ∀ h x, TFrame h (rec h x).1)
    {h0 h : THeap V} (hf : TFrame h0 h) {r : Nat} (hr : h0.length ≤ r) (l o) :
    TFrame h0 (copyRight S rec h r l o).1 := by
  cases o with
  | ref x =>
    have := hrec h x
    simp only [copyRight]
    generalize rec h x = rc at this
    obtain ⟨h', res⟩ := rc
    cases res with
    | error e => exact hf.trans this
    | ok x' => exact setRight_frame (hf.trans this) hr _
  | _ => exact setLeft_frame hf hr _

theorem copyData_frame {rec : THeap V → Nat → TRes V Nat} (hrec : ∀ h x, TFrame h (rec h x).1)
    {h0 h : THeap V} (hf : TFrame h0 h) {r : Nat} (hr : h0.length ≤ r) (d) :
    TFrame h0 (copyData S rec h r d).1 := by
  cases d with
  | arith op l o =>
    have := copyLeft_frame S hrec hf hr l
    simp only [copyData]
    generalize copyLeft S rec h r l = rc at this
    obtain ⟨h', res⟩ := rc
    cases res with
    | error e => exact this
    | ok x' => exact copyRight_frame S hrec this hr l o
  | _ => exact hf.set hr _

theorem copyT_frame (n : Nat) : ∀ (h : THeap V) (r : Nat), TFrame h (copyT S n h r).1 := by
  induction n with
  | zero => intro h r; exact TFrame.refl h
  | succ n ih =>
    intro h r
    unfold copyT
    split
    · exact TFrame.refl h
    rename_i t _
    have h1 := TFrame.append h (⟨none, none, t.buffer, t.data.fresh⟩ : TNode V)
    dsimp only
    split
    · split
      · exact h1
      · rename_i b _
        have h2 := h1.set (r := h.length) (Nat.le_refl _) (fun t => { t with base := some b })
        have h3 := copyNext_frame (rec := copyT S n) ih h2 (Nat.le_refl _) t.next
        generalize copyNext (copyT S n) _ h.length t.next = rc at h3
        obtain ⟨h', res⟩ := rc
        cases res with
        | error e => exact h3
        | ok u =>
          have h4 := copyData_frame S (rec := copyT S n) ih h3 (Nat.le_refl _) t.data
          dsimp only
          generalize copyData S (copyT S n) h' h.length t.data = rc at h4
          obtain ⟨h', res⟩ := rc
          cases res <;> exact h4
    · exact h1

/-- From `k` on, `next` leads to `k` or further. -/
def NextUp (k : Nat) (h : THeap V) : Prop :=
  ∀ (i : Nat) t j, k ≤ i → h[i]? = some t → t.next = some j → k ≤ j

omit S in
theorem NextUp.append {k : Nat} {h : THeap V} (hn : NextUp k h) (b buf d) :
    NextUp k (h ++ [⟨b, none, buf, d⟩]) := by
  intro i t j hk ht hj
  by_cases hi : i < h.length
  · rw [List.getElem?_append_left hi] at ht
    exact hn i t j hk ht hj
  · rw [List.getElem?_append_right (by omega)] at ht
    cases hd : i - h.length with
    | zero => rw [hd] at ht; simp at ht; subst ht; cases hj
    | succ m => rw [hd] at ht; simp at ht

omit S in
theorem NextUp.set {k : Nat} {h : THeap V} (hn : NextUp k h) (r : Nat) {f}
    (hf : ∀ t, (f t).next = t.next ∨ ∀ j, (f t).next = some j → k ≤ j) :
    NextUp k (setNode h r f) := by
  intro i t j hk ht hj
  by_cases hi : r = i
  · subst hi
    rw [setNode_eq] at ht
    cases ho : h[r]? with
    | none => rw [ho] at ht; cases ht
    | some t0 =>
      rw [ho] at ht
      cases ht
      rcases hf t0 with h1 | h1
      · exact hn r t0 j hk ho (h1 ▸ hj)
      · exact h1 j hj
  · rw [setNode_ne _ _ hi] at ht
    exact hn i t j hk ht hj

omit S in
theorem NextUp.setLeft {k : Nat} {h : THeap V} (hn : NextUp k h) (r : Nat) (o) :
    NextUp k (setLeft h r o) :=
  hn.set r (fun t => .inl (by split <;> rfl))

omit S in
theorem NextUp.setRight {k : Nat} {h : THeap V} (hn : NextUp k h) (r : Nat) (o) :
    NextUp k (setRight h r o) :=
  hn.set r (fun t => .inl (by split <;> rfl))

theorem copyT_index {n : Nat} {h : THeap V} {r h' r'} (hc : copyT S n h r = (h', .ok r')) :
    r' = h.length := by
  cases n with
  | zero => simp [copyT] at hc
  | succ n =>
    unfold copyT at hc
    split at hc
    · simp at hc
    dsimp only at hc
    split at hc
    rotate_left
    · simp at hc
    split at hc
    · simp at hc
    split at hc
    · simp at hc
    split at hc
    · simp at hc
    simp only [Prod.mk.injEq, Except.ok.injEq] at hc
    exact hc.2.symm

theorem copyT_nextUp (n : Nat) : ∀ {k : Nat} {h : THeap V} (r : Nat), k ≤ h.length → NextUp k h →
    NextUp k (copyT S n h r).1 := by
  induction n with
  | zero => intro k h r _ hn; exact hn
  | succ n ih =>
    intro k h r hk hn
    have hidx : ∀ {h : THeap V} {x h' x'}, copyT S n h x = (h', .ok x') → x' = h.length :=
      copyT_index S
    unfold copyT
    split
    · exact hn
    rename_i t _
    have h1 := hn.append none t.buffer t.data.fresh
    have hl1 : k ≤ (h ++ [(⟨none, none, t.buffer, t.data.fresh⟩ : TNode V)]).length := by
      simp; omega
    dsimp only
    split
    rotate_left
    · exact h1
    split
    · exact h1
    rename_i b _
    have h2 := h1.set h.length (f := fun t => { t with base := some b }) (fun t => .inl rfl)
    have hl2 : k ≤ (setNode (h ++ [(⟨none, none, t.buffer, t.data.fresh⟩ : TNode V)]) h.length
      (fun t => { t with base := some b })).length := by rw [setNode_length]; exact hl1
    generalize setNode (h ++ [(⟨none, none, t.buffer, t.data.fresh⟩ : TNode V)]) h.length
      (fun t => { t with base := some b }) = g at h2 hl2
    have hN : NextUp k (copyNext (copyT S n) g h.length t.next).1 ∧
        k ≤ (copyNext (copyT S n) g h.length t.next).1.length := by
      cases t.next with
      | none => exact ⟨h2, hl2⟩
      | some x =>
        simp only [copyNext]
        have a1 := ih x hl2 h2
        have a2 := (copyT_frame S n g x).len
        have a3 := @hidx g x
        generalize copyT S n g x = rc at a1 a2 a3
        obtain ⟨g', res⟩ := rc
        cases res with
        | error e => exact ⟨a1, Nat.le_trans hl2 a2⟩
        | ok x' =>
          have := a3 rfl
          exact ⟨a1.set _ (fun t => .inr (fun j hj => by cases hj; omega)),
            by rw [setNode_length]; exact Nat.le_trans hl2 a2⟩
    generalize copyNext (copyT S n) g h.length t.next = rc at hN
    obtain ⟨g', res⟩ := rc
    cases res with
    | error e => exact hN.1
    | ok u =>
      obtain ⟨hN1, hN2⟩ := hN
      dsimp only at hN1 hN2 ⊢
      have hD : NextUp k (copyData S (copyT S n) g' h.length t.data).1 := by
        cases t.data with
        | arith op l o =>
          simp only [copyData]
          have hL : NextUp k (copyLeft S (copyT S n) g' h.length l).1 ∧
              k ≤ (copyLeft S (copyT S n) g' h.length l).1.length := by
            cases l with
            | ref x =>
              simp only [copyLeft]
              have a1 := ih x hN2 hN1
              have a2 := (copyT_frame S n g' x).len
              generalize copyT S n g' x = rc at a1 a2
              obtain ⟨g2, res⟩ := rc
              cases res with
              | error e => exact ⟨a1, Nat.le_trans hN2 a2⟩
              | ok x' => exact ⟨a1.setLeft _ _, by
                  simp only [setLeft, setNode_length]; exact Nat.le_trans hN2 a2⟩
            | _ => exact ⟨hN1.setLeft _ _, by simp only [copyLeft, setLeft, setNode_length]; exact hN2⟩
          generalize copyLeft S (copyT S n) g' h.length l = rc at hL
          obtain ⟨g2, res⟩ := rc
          cases res with
          | error e => exact hL.1
          | ok u =>
            cases o with
            | ref x =>
              simp only [copyRight]
              have a1 := ih x hL.2 hL.1
              dsimp only at a1
              generalize copyT S n g2 x = rc at a1
              obtain ⟨g3, res⟩ := rc
              cases res with
              | error e => exact a1
              | ok x' => exact a1.setRight _ _
            | _ => exact hL.1.setLeft _ _
        | _ => exact hN1.set _ (fun t => .inl rfl)
      generalize copyData S (copyT S n) g' h.length t.data = rc at hD
      obtain ⟨g2, res⟩ := rc
      cases res <;> exact hD

omit S in
theorem lastOf_ge {h : THeap V} {k : Nat} (hn : NextUp k h) :
    ∀ (n r x : Nat), k ≤ r → lastOf h n r = .ok x → k ≤ x := by
  intro n
  induction n with
  | zero => intro r x _ h; simp [lastOf] at h
  | succ n ih =>
    intro r x hr hl
    unfold lastOf at hl
    split at hl
    · simp at hl
    rename_i t ht
    split at hl
    · cases hl; exact hr
    · rename_i y hy
      exact ih y x (hn r t y hr ht hy) hl

theorem callT_frame (n : Nat) (h : THeap V) (r : Nat) (o) : TFrame h (callT S n h r o).1 := by
  unfold callT
  split
  · exact TFrame.refl h
  split
  · exact TFrame.refl h
  have h1 := copyT_frame S n h r
  have h2 : NextUp h.length (copyT S n h r).1 := copyT_nextUp S n r (Nat.le_refl _) (by
    intro i t j hi ht
    rw [List.getElem?_eq_none hi] at ht
    cases ht)
  have h3 := @copyT_index V S n h r
  generalize copyT S n h r = rc at h1 h2 h3
  obtain ⟨g, res⟩ := rc
  cases res with
  | error e => exact h1
  | ok r' =>
    have h3 := h3 rfl
    dsimp only at h1 h2 ⊢
    split
    · rename_i x
      have h4 := copyT_frame S n g x
      generalize copyT S n g x = rc at h4
      obtain ⟨g', res⟩ := rc
      cases res with
      | error e => exact h1.trans h4
      | ok o' => exact (h1.trans h4).set (by omega) _
    · split
      · split
        · exact h1
        · exact h1
        · split
          · exact h1
          · rename_i x hx
            have := lastOf_ge h2 n r' x (by omega) hx
            split <;> exact h1.set this _
      · exact h1
    · exact h1

theorem initOpd_frame (n : Nat) (h : THeap V) (o) : TFrame h (initOpd S n h o).1 := by
  cases o with
  | ref x =>
    simp only [initOpd]
    have := copyT_frame S n h x
    generalize copyT S n h x = rc at this
    obtain ⟨g, res⟩ := rc
    cases res <;> exact this
  | _ => exact TFrame.refl h

theorem newArith_frame (n : Nat) (h : THeap V) (op l rt) : TFrame h (newArith S n h op l rt).1 := by
  unfold newArith
  have h1 := TFrame.append h (⟨none, none, none, .arith op .none .none⟩ : TNode V)
  dsimp only
  have h2 := initOpd_frame S n (h ++ [⟨none, none, none, .arith op .none .none⟩]) l
  generalize initOpd S n (h ++ [⟨none, none, none, .arith op .none .none⟩]) l = rc at h2
  obtain ⟨g, res⟩ := rc
  cases res with
  | error e => exact h1.trans h2
  | ok l' =>
    have h3 := setLeft_frame (h1.trans h2) (Nat.le_refl h.length) l'
    dsimp only at h3 ⊢
    have h4 := initOpd_frame S n (setLeft g h.length l') rt
    generalize initOpd S n (setLeft g h.length l') rt = rc at h4
    obtain ⟨g', res⟩ := rc
    cases res with
    | error e => exact h3.trans h4
    | ok rt' =>
      dsimp only
      split <;> exact setRight_frame (h3.trans h4) (Nat.le_refl h.length) rt'

theorem measureMul_frame (n : Nat) (h : THeap V) (r o) : TFrame h (measureMul S n h r o).1 := by
  unfold measureMul
  split
  · split
    · exact callT_frame S n h r _
    · exact newArith_frame S n h _ _ _
  · exact newArith_frame S n h _ _ _

theorem combine_frame (n : Nat) (h : THeap V) (op) : TFrame h (combine S n h op).1 := by
  cases op with
  | copy r => exact copyT_frame S n h r
  | call r o => exact callT_frame S n h r o
  | bin b r o =>
    cases b <;> simp only [combine, binT]
    case mul => split; exact measureMul_frame S n h r o; exact newArith_frame S n h _ _ _
    all_goals exact newArith_frame S n h _ _ _
  | rbin b v r =>
    cases b <;> simp only [combine, rbinT]
    case mul => split; exact measureMul_frame S n h r _; exact newArith_frame S n h _ _ _
    case div => exact TFrame.refl h
    all_goals exact newArith_frame S n h _ _ _
  | neg r => exact newArith_frame S n h _ _ _

end

/-! ### Evaluation depends on what is used only -/

theorem evalOpd_congr {rec rec' : Nat → Except Err V} {o : Opd V}
    (h : ∀ j ∈ o.refs, rec j = rec' j) : evalOpd rec o = evalOpd rec' o := by
  cases o with
  | ref x => simp only [evalOpd, h x (by simp [Opd.refs])]
  | _ => rfl

theorem evalArg_congr {rec rec' : Nat → Except Err V} {t : TNode V}
    (h : ∀ j ∈ t.next.toList, rec j = rec' j) : evalArg rec t = evalArg rec' t := by
  unfold evalArg
  cases hn : t.next with
  | none => rfl
  | some x => simp only [h x (by simp [hn])]

theorem evalNode_congr (S : TSem V) {rec rec' : Nat → Except Err V} {t : TNode V}
    (h : ∀ j ∈ t.refs, rec j = rec' j) : evalNode S rec t = evalNode S rec' t := by
  have ha : evalArg rec t = evalArg rec' t :=
    evalArg_congr (fun j hj => h j (List.mem_append_left _ hj))
  unfold evalNode
  split
  · rfl
  · rename_i op l r hd
    have hl : evalOpd rec l = evalOpd rec' l :=
      evalOpd_congr (fun j hj => h j (by simp only [TNode.refs, hd]; simp [hj]))
    have hr : evalOpd rec r = evalOpd rec' r :=
      evalOpd_congr (fun j hj => h j (by simp only [TNode.refs, hd]; simp [hj]))
    rw [hl, hr]
  · rw [ha]
  · rw [ha]
  · rw [ha]
  · rfl

theorem evalT_congr (S : TSem V) {h h' : THeap V} {A : Nat → Prop}
    (hs : ∀ i, A i → h'[i]? = h[i]?)
    (hc : ∀ i, A i → ∀ t, h[i]? = some t → ∀ j ∈ t.refs, A j) :
    ∀ n i, A i → evalT S h' n i = evalT S h n i := by
  intro n
  induction n with
  | zero => intro i _; rfl
  | succ n ih =>
    intro i hi
    unfold evalT
    rw [hs i hi]
    cases ht : h[i]? with
    | none => rfl
    | some t => exact evalNode_congr S (fun j hj => ih j (hc i hi t ht j hj))

/-! ### What can be copied -/

/-- `Copyable`, as the existence of a closed set. -/
def Good (h : THeap V) (r : Nat) : Prop :=
  ∃ A : Nat → Prop, A r ∧ ∀ i, A i → ∃ t, h[i]? = some t ∧ t.KeepsOperands ∧ ∀ j ∈ t.refs, A j

theorem good_of_copyable {h : THeap V} {r : Nat} (hc : Copyable h r) : Good h r := by
  refine ⟨Reach h r, .self, fun i hi => ?_⟩
  obtain ⟨t, ht, hk⟩ := hc i hi
  exact ⟨t, ht, hk, fun j hj => .step hi ht hj⟩

theorem Good.frame {h h' : THeap V} {r : Nat} (hg : Good h r) (hf : TFrame h h') : Good h' r := by
  obtain ⟨A, h1, h2⟩ := hg
  refine ⟨A, h1, fun i hi => ?_⟩
  obtain ⟨t, ht, h3⟩ := h2 i hi
  exact ⟨t, by rw [hf.same i (List.getElem?_eq_some_iff.1 ht).1, ht], h3⟩

theorem Good.eval_frame (S : TSem V) {h h' : THeap V} {r : Nat} (hg : Good h r)
    (hf : TFrame h h') (n : Nat) : evalT S h' n r = evalT S h n r := by
  obtain ⟨A, h1, h2⟩ := hg
  refine evalT_congr S (A := A) (fun i hi => ?_) (fun i hi t ht j hj => ?_) n r h1
  · obtain ⟨t, ht, _⟩ := h2 i hi
    exact hf.same i (List.getElem?_eq_some_iff.1 ht).1
  · obtain ⟨t', ht', _, h3⟩ := h2 i hi
    rw [ht] at ht'
    cases ht'
    exact h3 j hj

theorem Good.refs {h : THeap V} {r : Nat} (hg : Good h r) {t} (ht : h[r]? = some t) :
    t.KeepsOperands ∧ ∀ j ∈ t.refs, Good h j := by
  obtain ⟨A, h1, h2⟩ := hg
  obtain ⟨t', ht', hk, h3⟩ := h2 r h1
  rw [ht] at ht'
  cases ht'
  exact ⟨hk, fun j hj => ⟨A, h3 j hj, h2⟩⟩

/-! ### Copying -/

/-- While `k` is being filled: nothing below has changed, what lies above is closed. -/
structure Filling (h h1 : THeap V) (k : Nat) : Prop where
  frame : TFrame h h1
  old : h.length ≤ k
  lt : k < h1.length
  closed : ∀ i, k < i → ∀ t, h1[i]? = some t → ∀ j ∈ t.refs, k < j ∧ j < h1.length
  keeps : ∀ i, k < i → ∀ t, h1[i]? = some t → t.KeepsOperands

/-- `x'` stands in `h1`, above `k`, for `x` in `h`. -/
def Stands (S : TSem V) (h h1 : THeap V) (k x x' : Nat) : Prop :=
  k < x' ∧ x' < h1.length ∧ ∀ f, evalT S h1 f x' = evalT S h f x

theorem Filling.set {h h1 : THeap V} {k : Nat} (hi : Filling h h1 k) (f) :
    Filling h (setNode h1 k f) k where
  frame := hi.frame.set hi.old f
  old := hi.old
  lt := by rw [setNode_length]; exact hi.lt
  closed := by
    intro i hki t ht
    rw [setNode_ne _ _ (by omega)] at ht
    rw [setNode_length]
    exact hi.closed i hki t ht
  keeps := by
    intro i hki t ht
    rw [setNode_ne _ _ (by omega)] at ht
    exact hi.keeps i hki t ht

theorem Stands.transfer {S : TSem V} {h h1 h2 : THeap V} {k x x' : Nat}
    (hs : Stands S h h1 k x x') (hi : Filling h h1 k) (hlen : h1.length ≤ h2.length)
    (hsame : ∀ i, k < i → i < h1.length → h2[i]? = h1[i]?) : Stands S h h2 k x x' := by
  refine ⟨hs.1, Nat.lt_of_lt_of_le hs.2.1 hlen, fun f => ?_⟩
  rw [← hs.2.2 f]
  exact evalT_congr S (A := fun i => k < i ∧ i < h1.length) (fun i hA => hsame i hA.1 hA.2)
    (fun i hA t ht j hj => hi.closed i hA.1 t ht j hj) f x' ⟨hs.1, hs.2.1⟩

theorem Stands.set {S : TSem V} {h h1 : THeap V} {k x x' : Nat} (hs : Stands S h h1 k x x')
    (hi : Filling h h1 k) (f) : Stands S h (setNode h1 k f) k x x' :=
  hs.transfer hi (by rw [setNode_length]; exact Nat.le_refl _)
    (fun i hki _ => setNode_ne _ _ (by omega))

/-- An operand stands for another. -/
def StandsOpd (S : TSem V) (h h1 : THeap V) (k : Nat) : Opd V → Opd V → Prop
  | .ref x, .ref x' => Stands S h h1 k x x'
  | .val v, .val v' => v = v'
  | .none, .none => True
  | _, _ => False

/-- A `next` stands for another. -/
def StandsOpt (S : TSem V) (h h1 : THeap V) (k : Nat) : Option Nat → Option Nat → Prop
  | some x, some x' => Stands S h h1 k x x'
  | none, none => True
  | _, _ => False

/-- The data stands for another. -/
def StandsData (S : TSem V) (h h1 : THeap V) (k : Nat) : TData V → TData V → Prop
  | .arith op l r, .arith op' l' r' => op = op' ∧ StandsOpd S h h1 k l l' ∧ StandsOpd S h h1 k r r'
  | .accessor o key, .accessor o' key' => o = o' ∧ key = key'
  | .transform, .transform => True
  | .measure u, .measure u' => u = u'
  | .colormap c a b, .colormap c' a' b' => c = c' ∧ a = a' ∧ b = b'
  | .out n, .out n' => n = n'
  | _, _ => False

/-- What a successful copy achieves. -/
structure CopySpec (S : TSem V) (h h' : THeap V) (r r' : Nat) : Prop where
  new : r' = h.length
  lt : r' < h'.length
  frame : TFrame h h'
  closed : ∀ i, h.length ≤ i → ∀ t, h'[i]? = some t → ∀ j ∈ t.refs, h.length ≤ j ∧ j < h'.length
  eval : ∀ f, evalT S h' f r' = evalT S h f r
  above : Filling h h' r'
  keeps : ∀ i, h.length ≤ i → ∀ t, h'[i]? = some t → t.KeepsOperands
  node : ∃ t t', h[r]? = some t ∧ h'[r']? = some t' ∧ t'.buffer = t.buffer ∧
    StandsOpt S h h' r' t.next t'.next ∧ StandsData S h h' r' t.data t'.data

/-- Copying a part while `k` is being filled. -/
theorem Filling.sub {S : TSem V} {h h1 h2 : THeap V} {k x x' : Nat} (hi : Filling h h1 k)
    (hg : Good h x) (hc : CopySpec S h1 h2 x x') :
    Filling h h2 k ∧ Stands S h h2 k x x' ∧ h2[k]? = h1[k]? ∧
      ∀ y y', Stands S h h1 k y y' → Stands S h h2 k y y' := by
  have hk := hi.lt
  refine ⟨⟨hi.frame.trans hc.frame, hi.old, Nat.lt_of_lt_of_le hk hc.frame.len, ?_, ?_⟩, ?_,
    hc.frame.same k hk, ?_⟩
  · intro i hki t ht j hj
    by_cases hil : i < h1.length
    · rw [hc.frame.same i hil] at ht
      obtain ⟨a, b⟩ := hi.closed i hki t ht j hj
      exact ⟨a, Nat.lt_of_lt_of_le b hc.frame.len⟩
    · obtain ⟨a, b⟩ := hc.closed i (by omega) t ht j hj
      exact ⟨by omega, b⟩
  · intro i hki t ht
    by_cases hil : i < h1.length
    · rw [hc.frame.same i hil] at ht
      exact hi.keeps i hki t ht
    · exact hc.keeps i (by omega) t ht
  · refine ⟨by rw [hc.new]; exact hk, hc.lt, fun f => ?_⟩
    rw [hc.eval f, hg.eval_frame S hi.frame]
  · intro y y' hs
    exact hs.transfer hi hc.frame.len (fun i _ hil => hc.frame.same i hil)

theorem evalOpd_stands {S : TSem V} {h h1 : THeap V} {k : Nat} {o o'}
    (hs : StandsOpd S h h1 k o o') (f : Nat) : evalOpd (evalT S h1 f) o' = evalOpd (evalT S h f) o := by
  cases o <;> cases o' <;> simp only [StandsOpd] at hs <;> simp only [evalOpd]
  · rw [hs]
  · rw [hs.2.2 f]

theorem evalNode_stands {S : TSem V} {h h1 : THeap V} {k : Nat} {t t' : TNode V}
    (hn : StandsOpt S h h1 k t.next t'.next) (hb : t'.buffer = t.buffer)
    (hd : StandsData S h h1 k t.data t'.data) (f : Nat) :
    evalNode S (evalT S h1 f) t' = evalNode S (evalT S h f) t := by
  have ha : evalArg (evalT S h1 f) t' = evalArg (evalT S h f) t := by
    unfold evalArg
    cases h1 : t.next <;> cases h2 : t'.next <;> rw [h1, h2] at hn <;>
      simp only [StandsOpt] at hn
    · simp only [hb]
    · simp only [hn.2.2 f]
  unfold evalNode
  cases h1 : t.data <;> cases h2 : t'.data <;> rw [h1, h2] at hd <;> simp only [StandsData] at hd
  · obtain ⟨rfl, hl, hr⟩ := hd
    simp only [evalOpd_stands hl, evalOpd_stands hr]
  · simp only [ha, hd.2]
  · simp only [ha, hd]
  · simp only [ha, hd.1, hd.2.1, hd.2.2]
  · simp only [hd]

theorem StandsOpd.mono {S : TSem V} {h h1 h2 : THeap V} {k : Nat} {o o'}
    (hs : StandsOpd S h h1 k o o')
    (hm : ∀ y y', Stands S h h1 k y y' → Stands S h h2 k y y') : StandsOpd S h h2 k o o' := by
  cases o <;> cases o' <;> simp only [StandsOpd] at hs ⊢
  · exact hs
  · exact hm _ _ hs

theorem StandsOpt.mono {S : TSem V} {h h1 h2 : THeap V} {k : Nat} {o o'}
    (hs : StandsOpt S h h1 k o o')
    (hm : ∀ y y', Stands S h h1 k y y' → Stands S h h2 k y y') : StandsOpt S h h2 k o o' := by
  cases o <;> cases o' <;> simp only [StandsOpt] at hs ⊢
  exact hm _ _ hs

theorem standsData_keeps {S : TSem V} {h h1 : THeap V} {k : Nat} {t t' : TNode V}
    (hs : StandsData S h h1 k t.data t'.data) (hk : t.KeepsOperands) : t'.KeepsOperands := by
  unfold TNode.KeepsOperands at hk ⊢
  cases h1 : t.data <;> cases h2 : t'.data <;> rw [h1, h2] at hs <;> simp only [StandsData] at hs
  case arith.arith op l r op' l' r' =>
    simp only [h1] at hk
    dsimp only
    obtain ⟨_, hl, hr⟩ := hs
    rcases hk with h3 | ⟨h3, h4⟩
    · left
      cases r <;> cases r' <;> simp only [StandsOpd] at hr <;> simp [Opd.refs] at h3 ⊢
    · right
      subst h3
      cases r' <;> simp only [StandsOpd] at hr
      cases l <;> cases l' <;> simp only [StandsOpd] at hl <;> simp [Opd.refs] at h4 ⊢
  all_goals trivial

/-- `copyNext` on a copyable chain. -/
theorem copyNext_spec {S : TSem V} {n : Nat}
    (ih : ∀ (h : THeap V) r h' r', copyT S n h r = (h', .ok r') → Good h r → CopySpec S h h' r r')
    {h h1 h2 : THeap V} {k : Nat} (hi : Filling h h1 k) {o : Option Nat}
    (hg : ∀ x, o = some x → Good h x) (hc : copyNext (copyT S n) h1 k o = (h2, .ok ()))
    {t1} (ht : h1[k]? = some t1) (hnn : t1.next = none) :
    Filling h h2 k ∧ ∃ o', StandsOpt S h h2 k o o' ∧ h2[k]? = some { t1 with next := o' } := by
  cases o with
  | none =>
    simp only [copyNext, Prod.mk.injEq] at hc
    obtain ⟨rfl, _⟩ := hc
    exact ⟨hi, none, trivial, by rw [ht]; obtain ⟨a, b, c, d⟩ := t1; cases hnn; rfl⟩
  | some x =>
    simp only [copyNext] at hc
    cases hr : copyT S n h1 x with
    | mk h3 res =>
      rw [hr] at hc
      cases res with
      | error e => simp at hc
      | ok x' =>
        dsimp only at hc
        simp only [Prod.mk.injEq] at hc
        obtain ⟨rfl, _⟩ := hc
        have hgx := hg x rfl
        obtain ⟨h4, h5, h6, _⟩ := hi.sub hgx (ih h1 x h3 x' hr (hgx.frame hi.frame))
        refine ⟨h4.set _, some x', h5.set h4 _, ?_⟩
        rw [setNode_eq, h6, ht]
        rfl

theorem copyLeft_spec {S : TSem V} {n : Nat}
    (ih : ∀ (h : THeap V) r h' r', copyT S n h r = (h', .ok r') → Good h r → CopySpec S h h' r r')
    {h h1 h2 : THeap V} {k : Nat} (hi : Filling h h1 k) {l : Opd V}
    (hg : ∀ x ∈ l.refs, Good h x) (hc : copyLeft S (copyT S n) h1 k l = (h2, .ok ()))
    {t1} (ht : h1[k]? = some t1) {op a b} (hd : t1.data = .arith op a b) :
    Filling h h2 k ∧ (∃ l', StandsOpd S h h2 k l l' ∧
      h2[k]? = some { t1 with data := .arith op l' b }) ∧
      ∀ y y', Stands S h h1 k y y' → Stands S h h2 k y y' := by
  cases l with
  | ref x =>
    simp only [copyLeft] at hc
    cases hr : copyT S n h1 x with
    | mk h3 res =>
      rw [hr] at hc
      cases res with
      | error e => simp at hc
      | ok x' =>
        dsimp only at hc
        simp only [Prod.mk.injEq] at hc
        obtain ⟨rfl, _⟩ := hc
        have hgx := hg x (by simp [Opd.refs])
        obtain ⟨h4, h5, h6, h7⟩ := hi.sub hgx (ih h1 x h3 x' hr (hgx.frame hi.frame))
        refine ⟨h4.set _, ⟨.ref x', h5.set h4 _, ?_⟩, fun y y' hy => (h7 y y' hy).set h4 _⟩
        rw [setLeft, setNode_eq, h6, ht, Option.map_some, hd]
  | val v =>
    simp only [copyLeft, Prod.mk.injEq] at hc
    obtain ⟨rfl, _⟩ := hc
    refine ⟨hi.set _, ⟨.val v, rfl, ?_⟩, fun y y' hy => hy.set hi _⟩
    rw [setLeft, setNode_eq, ht, Option.map_some, hd]
  | none =>
    simp only [copyLeft, Prod.mk.injEq] at hc
    obtain ⟨rfl, _⟩ := hc
    refine ⟨hi.set _, ⟨.none, trivial, ?_⟩, fun y y' hy => hy.set hi _⟩
    rw [setLeft, setNode_eq, ht, Option.map_some, hd]

theorem copyRight_spec {S : TSem V} {n : Nat}
    (ih : ∀ (h : THeap V) r h' r', copyT S n h r = (h', .ok r') → Good h r → CopySpec S h h' r r')
    {h h1 h2 : THeap V} {k : Nat} (hi : Filling h h1 k) {l r : Opd V}
    (hg : ∀ x ∈ r.refs, Good h x) (hk : r.refs ≠ [] ∨ (r = .none ∧ l.refs = []))
    (hc : copyRight S (copyT S n) h1 k l r = (h2, .ok ()))
    {t1} (ht : h1[k]? = some t1) {op l'} (hd : t1.data = .arith op l' .none)
    (hl : StandsOpd S h h1 k l l') :
    Filling h h2 k ∧ (∃ l'' r'', StandsOpd S h h2 k l l'' ∧ StandsOpd S h h2 k r r'' ∧
      h2[k]? = some { t1 with data := .arith op l'' r'' }) ∧
      ∀ y y', Stands S h h1 k y y' → Stands S h h2 k y y' := by
  cases r with
  | ref x =>
    simp only [copyRight] at hc
    cases hr : copyT S n h1 x with
    | mk h3 res =>
      rw [hr] at hc
      cases res with
      | error e => simp at hc
      | ok x' =>
        dsimp only at hc
        simp only [Prod.mk.injEq] at hc
        obtain ⟨rfl, _⟩ := hc
        have hgx := hg x (by simp [Opd.refs])
        obtain ⟨h4, h5, h6, h7⟩ := hi.sub hgx (ih h1 x h3 x' hr (hgx.frame hi.frame))
        refine ⟨h4.set _, ⟨l', .ref x', hl.mono (fun y y' hy => (h7 y y' hy).set h4 _),
          h5.set h4 _, ?_⟩, fun y y' hy => (h7 y y' hy).set h4 _⟩
        rw [setRight, setNode_eq, h6, ht, Option.map_some, hd]
  | val v => rcases hk with h | h <;> simp [Opd.refs] at h
  | none =>
    have hlr : l.refs = [] := by
      rcases hk with h | h
      · simp [Opd.refs] at h
      · exact h.2
    simp only [copyRight, Prod.mk.injEq] at hc
    obtain ⟨rfl, _⟩ := hc
    refine ⟨hi.set _, ⟨l, .none, ?_, trivial, ?_⟩, fun y y' hy => hy.set hi _⟩
    · cases l with
      | ref x => simp [Opd.refs] at hlr
      | val v => rfl
      | none => trivial
    · rw [setLeft, setNode_eq, ht, Option.map_some, hd]

theorem copyData_spec {S : TSem V} {n : Nat}
    (ih : ∀ (h : THeap V) r h' r', copyT S n h r = (h', .ok r') → Good h r → CopySpec S h h' r r')
    {h h1 h2 : THeap V} {k : Nat} (hi : Filling h h1 k) {t : TNode V}
    (hg : ∀ x ∈ t.refs, Good h x) (hk : t.KeepsOperands)
    (hc : copyData S (copyT S n) h1 k t.data = (h2, .ok ()))
    {t1} (ht : h1[k]? = some t1) (hd : t1.data = t.data.fresh) :
    Filling h h2 k ∧ (∃ d', StandsData S h h2 k t.data d' ∧ h2[k]? = some { t1 with data := d' }) ∧
      ∀ y y', Stands S h h1 k y y' → Stands S h h2 k y y' := by
  cases hdt : t.data with
  | arith op l r =>
    rw [hdt] at hc hd
    simp only [TNode.KeepsOperands, hdt] at hk
    have hgl : ∀ x ∈ l.refs, Good h x := fun x hx => hg x (by simp [TNode.refs, hdt, hx])
    have hgr : ∀ x ∈ r.refs, Good h x := fun x hx => hg x (by simp [TNode.refs, hdt, hx])
    simp only [copyData] at hc
    cases hL : copyLeft S (copyT S n) h1 k l with
    | mk h3 res =>
      rw [hL] at hc
      cases res with
      | error e => simp at hc
      | ok u =>
        dsimp only at hc
        obtain ⟨a1, ⟨l', a2, a3⟩, a4⟩ := copyLeft_spec ih hi hgl hL ht hd
        obtain ⟨b1, ⟨l'', r'', b2, b3, b4⟩, b5⟩ := copyRight_spec ih a1 hgr hk hc a3 rfl a2
        exact ⟨b1, ⟨.arith op l'' r'', ⟨rfl, b2, b3⟩, b4⟩, fun y y' hy => b5 y y' (a4 y y' hy)⟩
  | transform =>
    rw [hdt] at hc
    simp only [copyData, Prod.mk.injEq] at hc
    obtain ⟨rfl, _⟩ := hc
    exact ⟨hi.set _, ⟨.transform, trivial, by rw [setNode_eq, ht]; rfl⟩, fun y y' hy => hy.set hi _⟩
  | accessor o key =>
    rw [hdt] at hc
    simp only [copyData, Prod.mk.injEq] at hc
    obtain ⟨rfl, _⟩ := hc
    exact ⟨hi.set _, ⟨.accessor o key, ⟨rfl, rfl⟩, by rw [setNode_eq, ht]; rfl⟩,
      fun y y' hy => hy.set hi _⟩
  | measure u =>
    rw [hdt] at hc
    simp only [copyData, Prod.mk.injEq] at hc
    obtain ⟨rfl, _⟩ := hc
    exact ⟨hi.set _, ⟨.measure u, rfl, by rw [setNode_eq, ht]; rfl⟩, fun y y' hy => hy.set hi _⟩
  | colormap c a b =>
    rw [hdt] at hc
    simp only [copyData, Prod.mk.injEq] at hc
    obtain ⟨rfl, _⟩ := hc
    exact ⟨hi.set _, ⟨.colormap c a b, ⟨rfl, rfl, rfl⟩, by rw [setNode_eq, ht]; rfl⟩,
      fun y y' hy => hy.set hi _⟩
  | out m =>
    rw [hdt] at hc
    simp only [copyData, Prod.mk.injEq] at hc
    obtain ⟨rfl, _⟩ := hc
    exact ⟨hi.set _, ⟨.out m, rfl, by rw [setNode_eq, ht]; rfl⟩, fun y y' hy => hy.set hi _⟩

theorem copyT_spec (S : TSem V) : ∀ (n : Nat) (h : THeap V) (r : Nat) (h' : THeap V) (r' : Nat),
    copyT S n h r = (h', .ok r') → Good h r → CopySpec S h h' r r' := by
  intro n
  induction n with
  | zero => intro h r h' r' hc _; simp [copyT] at hc
  | succ n ih =>
    intro h r h' r' hc hg
    have hframe : TFrame h h' := by
      have := copyT_frame S (n + 1) h r
      rw [hc] at this
      exact this
    unfold copyT at hc
    split at hc
    · simp at hc
    rename_i t ht
    obtain ⟨hkeep, hrefs⟩ := hg.refs ht
    dsimp only at hc
    split at hc
    rotate_left
    · simp at hc
    split at hc
    · simp at hc
    rename_i b _
    have hF0 : Filling h (h ++ [⟨none, none, t.buffer, t.data.fresh⟩]) h.length := by
      refine ⟨TFrame.append h _, Nat.le_refl _, by simp, ?_, ?_⟩ <;>
      · intro i hi t' ht'
        rw [List.getElem?_eq_none (by simp; omega)] at ht'
        cases ht'
    have hF1 := hF0.set (fun t => { t with base := some b })
    have hn1 : (setNode (h ++ [⟨none, none, t.buffer, t.data.fresh⟩]) h.length
        (fun t => { t with base := some b }))[h.length]? =
        some ⟨some b, none, t.buffer, t.data.fresh⟩ := by
      rw [setNode_eq]; simp
    generalize setNode (h ++ [⟨none, none, t.buffer, t.data.fresh⟩]) h.length
      (fun t => { t with base := some b }) = h1 at hc hF1 hn1
    cases hN : copyNext (copyT S n) h1 h.length t.next with
    | mk h2 res =>
      rw [hN] at hc
      cases res with
      | error e => simp at hc
      | ok u =>
        dsimp only at hc
        obtain ⟨hF2, o', hso, hn2⟩ := copyNext_spec ih hF1
          (fun x hx => hrefs x (by simp [TNode.refs, hx])) hN hn1 rfl
        cases hD : copyData S (copyT S n) h2 h.length t.data with
        | mk h3 res =>
          rw [hD] at hc
          cases res with
          | error e => simp at hc
          | ok u =>
            simp only [Prod.mk.injEq, Except.ok.injEq] at hc
            obtain ⟨rfl, rfl⟩ := hc
            obtain ⟨hF3, ⟨d', hsd, hn3⟩, hmono⟩ := copyData_spec ih hF2 hrefs hkeep hD hn2 rfl
            have hso3 := hso.mono hmono
            refine ⟨rfl, hF3.lt, hframe, ?_, ?_, hF3, ?_, t, _, ht, hn3, rfl, hso3, hsd⟩
            · intro i hi t' ht' j hj
              by_cases hih : i = h.length
              · subst hih
                rw [hn3] at ht'
                cases ht'
                have key : ∀ (o o' : Opd V), StandsOpd S h h3 h.length o o' →
                    ∀ j ∈ o'.refs, h.length ≤ j ∧ j < h3.length := by
                  intro o o' hs j hj
                  cases o <;> cases o' <;> simp only [StandsOpd] at hs <;> simp [Opd.refs] at hj
                  subst hj
                  exact ⟨Nat.le_of_lt hs.1, hs.2.1⟩
                rcases List.mem_append.1 hj with hj | hj
                · dsimp only at hj
                  cases hto : t.next <;> cases ho' : o' <;> rw [hto, ho'] at hso3 <;>
                    simp only [StandsOpt] at hso3 <;> rw [ho'] at hj <;> simp at hj
                  subst hj
                  exact ⟨Nat.le_of_lt hso3.1, hso3.2.1⟩
                · dsimp only at hj
                  cases hdt : t.data <;> cases hd' : d' <;> rw [hdt, hd'] at hsd <;>
                    simp only [StandsData] at hsd <;> rw [hd'] at hj <;> simp at hj
                  rcases hj with hj | hj
                  · exact key _ _ hsd.2.1 j hj
                  · exact key _ _ hsd.2.2 j hj
              · obtain ⟨a, b⟩ := hF3.closed i (by omega) t' ht' j hj
                exact ⟨Nat.le_of_lt a, b⟩
            · intro f
              cases f with
              | zero => rfl
              | succ f =>
                unfold evalT
                rw [hn3, ht]
                exact evalNode_stands (t := t) (t' := ⟨some b, o', t.buffer, d'⟩) hso3 rfl hsd f
            · intro i hi t' ht'
              by_cases hih : i = h.length
              · subst hih
                rw [hn3] at ht'
                cases ht'
                exact standsData_keeps hsd hkeep
              · exact hF3.keeps i (by omega) t' ht'

end Verif

namespace Verif
variable {V : Type}

/-! ### Results of combination -/

theorem initOpd_spec (S : TSem V) {n : Nat} {h h1 h2 : THeap V} {k : Nat} {o o'}
    (hi : Filling h h1 k) (hg : ∀ x ∈ o.refs, Good h x)
    (hc : initOpd S n h1 o = (h2, .ok o')) :
    Filling h h2 k ∧ StandsOpd S h h2 k o o' ∧ h2[k]? = h1[k]? ∧
      ∀ y y', Stands S h h1 k y y' → Stands S h h2 k y y' := by
  cases o with
  | ref x =>
    simp only [initOpd] at hc
    cases hr : copyT S n h1 x with
    | mk h3 res =>
      rw [hr] at hc
      cases res with
      | error e => simp at hc
      | ok x' =>
        simp only [Prod.mk.injEq, Except.ok.injEq] at hc
        obtain ⟨rfl, rfl⟩ := hc
        have hgx := hg x (by simp [Opd.refs])
        exact hi.sub hgx (copyT_spec S n h1 x h3 x' hr (hgx.frame hi.frame))
  | val v =>
    simp only [initOpd, Prod.mk.injEq, Except.ok.injEq] at hc
    obtain ⟨rfl, rfl⟩ := hc
    exact ⟨hi, rfl, rfl, fun _ _ h => h⟩
  | none =>
    simp only [initOpd, Prod.mk.injEq, Except.ok.injEq] at hc
    obtain ⟨rfl, rfl⟩ := hc
    exact ⟨hi, trivial, rfl, fun _ _ h => h⟩

theorem filling_append (h : THeap V) (t : TNode V) :
    Filling h (h ++ [t]) h.length := by
  refine ⟨TFrame.append h _, Nat.le_refl _, by simp, ?_, ?_⟩ <;>
  · intro i hi t' ht'
    rw [List.getElem?_eq_none (by simp; omega)] at ht'
    cases ht'

theorem newArith_spec (S : TSem V) {n : Nat} {h : THeap V} {op l rt h' r'}
    (hl : ∀ x ∈ l.refs, Good h x) (hr : ∀ x ∈ rt.refs, Good h x)
    (hc : newArith S n h op l rt = (h', .ok r')) :
    r' = h.length ∧ Filling h h' r' ∧ ∃ l' rt', StandsOpd S h h' r' l l' ∧
      StandsOpd S h h' r' rt rt' ∧ h'[r']? = some ⟨none, none, none, .arith op l' rt'⟩ := by
  unfold newArith at hc
  dsimp only at hc
  have hF := filling_append h ⟨none, none, none, .arith op .none .none⟩
  have hn : (h ++ [(⟨none, none, none, .arith op .none .none⟩ : TNode V)])[h.length]? =
    some ⟨none, none, none, .arith op .none .none⟩ := by simp
  generalize h ++ [(⟨none, none, none, .arith op .none .none⟩ : TNode V)] = h1 at hc hF hn
  cases hL : initOpd S n h1 l with
  | mk h2 res =>
    rw [hL] at hc
    cases res with
    | error e => simp at hc
    | ok l' =>
      dsimp only at hc
      obtain ⟨a1, a2, a3, _⟩ := initOpd_spec S hF hl hL
      have b1 := a1.set (fun t => match t.data with
        | .arith op _ rt => { t with data := .arith op l' rt }
        | _ => t)
      have b2 : StandsOpd S h (setLeft h2 h.length l') h.length l l' :=
        a2.mono (fun y y' hy => hy.set a1 _)
      have b3 : (setLeft h2 h.length l')[h.length]? = some ⟨none, none, none, .arith op l' .none⟩ := by
        rw [setLeft, setNode_eq, a3, hn]; rfl
      change Filling h (setLeft h2 h.length l') h.length at b1
      generalize setLeft h2 h.length l' = h3 at hc b1 b2 b3
      cases hR : initOpd S n h3 rt with
      | mk h4 res =>
        rw [hR] at hc
        cases res with
        | error e => simp at hc
        | ok rt' =>
          dsimp only at hc
          obtain ⟨c1, c2, c3, c4⟩ := initOpd_spec S b1 hr hR
          split at hc
          rotate_left
          · simp at hc
          simp only [Prod.mk.injEq, Except.ok.injEq] at hc
          obtain ⟨rfl, rfl⟩ := hc
          refine ⟨rfl, c1.set _, l', rt', ?_, ?_, ?_⟩
          · exact (b2.mono c4).mono (fun y y' hy => hy.set c1 _)
          · exact c2.mono (fun y y' hy => hy.set c1 _)
          · rw [setRight, setNode_eq, c3, b3]; rfl

theorem standsOpd_refs {S : TSem V} {h h' : THeap V} {k : Nat} {o o' : Opd V}
    (hs : StandsOpd S h h' k o o') : ∀ j ∈ o'.refs, k < j ∧ j < h'.length := by
  intro j hj
  cases o <;> cases o' <;> simp only [StandsOpd] at hs <;> simp [Opd.refs] at hj
  subst hj
  exact ⟨hs.1, hs.2.1⟩

/-- From a closed region nothing outside can be reached. -/
theorem reach_closed {h : THeap V} {k r i : Nat}
    (hc : ∀ i, k ≤ i → ∀ t, h[i]? = some t → ∀ j ∈ t.refs, k ≤ j) (hr : k ≤ r)
    (hi : Reach h r i) : k ≤ i := by
  induction hi with
  | self => exact hr
  | step _ ht hj ih => exact hc _ ih _ ht _ hj

theorem newArith_closed (S : TSem V) {n : Nat} {h : THeap V} {op l rt h' r'}
    (hl : ∀ x ∈ l.refs, Good h x) (hr : ∀ x ∈ rt.refs, Good h x)
    (hc : newArith S n h op l rt = (h', .ok r')) :
    ∀ i, h.length ≤ i → ∀ t, h'[i]? = some t → ∀ j ∈ t.refs, h.length ≤ j := by
  obtain ⟨rfl, hF, l', rt', h1, h2, h3⟩ := newArith_spec S hl hr hc
  intro i hi t ht j hj
  by_cases hih : i = h.length
  · subst hih
    rw [h3] at ht
    cases ht
    simp only [TNode.refs, Option.toList_none, List.nil_append, List.mem_append] at hj
    rcases hj with hj | hj
    · exact Nat.le_of_lt (standsOpd_refs h1 j hj).1
    · exact Nat.le_of_lt (standsOpd_refs h2 j hj).1
  · exact Nat.le_of_lt (hF.closed i (by omega) t ht j hj).1

/-- Calling with a transform. -/
theorem callT_ref_spec (S : TSem V) {n : Nat} {h : THeap V} {r o h' r'}
    (hg : Good h r) (hgo : Good h o) (hc : callT S n h r (.ref o) = (h', .ok r')) :
    r' = h.length ∧
    (∀ i, h.length ≤ i → ∀ t, h'[i]? = some t → ∀ j ∈ t.refs, h.length ≤ j) ∧
    Good h' r' ∧
    ∃ t d' b o', h[r]? = some t ∧ h'[r']? = some ⟨b, some o', none, d'⟩ ∧
      (∀ f, evalT S h' f o' = evalT S h f o) ∧ h.length < o' ∧
      StandsData S h h' r' t.data d' := by
  unfold callT at hc
  split at hc
  · simp at hc
  split at hc
  · simp at hc
  cases hC : copyT S n h r with
  | mk g res =>
    rw [hC] at hc
    cases res with
    | error e => simp at hc
    | ok r1 =>
      dsimp only at hc
      cases hO : copyT S n g o with
      | mk g2 res =>
        rw [hO] at hc
        cases res with
        | error e => simp at hc
        | ok o' =>
          simp only [Prod.mk.injEq, Except.ok.injEq] at hc
          obtain ⟨rfl, rfl⟩ := hc
          have c1 := copyT_spec S n h r g r1 hC hg
          have c2 := copyT_spec S n g o g2 o' hO (hgo.frame c1.frame)
          have e1 := c1.new
          have e2 := c2.new
          have e3 := c1.lt
          have e4 := c1.frame.len
          -- above r1 everything is closed
          obtain ⟨t, t', ht, ht', hb, hsn, hsd⟩ := c1.node
          have hlen : g.length ≤ g2.length := c2.frame.len
          have hlen2 : (setNode g2 r1 (fun t => { t with next := some o', buffer := none })).length =
            g2.length := setNode_length _ _ _
          have hcl : ∀ i, h.length ≤ i → ∀ t2, (setNode g2 r1
              (fun t => { t with next := some o', buffer := none }))[i]? = some t2 → ∀ j ∈ t2.refs,
              h.length ≤ j ∧ j < g2.length := by
            intro i hi t2 ht2 j hj
            by_cases hir : i = r1
            · subst hir
              rw [setNode_eq, c2.frame.same i e3, ht'] at ht2
              cases ht2
              have : j ∈ ((some o').toList ++ match t'.data with
                | .arith _ l r => l.refs ++ r.refs
                | _ => []) := hj
              rcases List.mem_append.1 this with hj' | hj'
              · simp at hj'
                have := c2.lt
                omega
              · obtain ⟨a, b⟩ := c1.closed i (by omega) t' ht' j (List.mem_append_right _ hj')
                exact ⟨a, by omega⟩
            · rw [setNode_ne _ _ (fun h => hir h.symm)] at ht2
              by_cases hil : i < g.length
              · rw [c2.frame.same i hil] at ht2
                obtain ⟨a, b⟩ := c1.closed i hi t2 ht2 j hj
                exact ⟨a, by omega⟩
              · obtain ⟨a, b⟩ := c2.closed i (by omega) t2 ht2 j hj
                exact ⟨by omega, b⟩
          refine ⟨e1, fun i hi t2 ht2 j hj => (hcl i hi t2 ht2 j hj).1, ?_,
            t, t'.data, t'.base, o', ht, ?_, ?_, by omega, ?_⟩
          · refine ⟨fun i => h.length ≤ i ∧ i < g2.length, ⟨by omega, by omega⟩, fun i hi => ?_⟩
            cases hgi : (setNode g2 r1 (fun t => { t with next := some o', buffer := none }))[i]? with
            | none => rw [List.getElem?_eq_none_iff] at hgi; omega
            | some t2 =>
              refine ⟨t2, rfl, ?_, hcl i hi.1 t2 hgi⟩
              by_cases hir : i = r1
              · subst hir
                rw [setNode_eq, c2.frame.same i e3, ht'] at hgi
                cases hgi
                exact c1.keeps i hi.1 t' ht'
              · rw [setNode_ne _ _ (fun h => hir h.symm)] at hgi
                by_cases hil : i < g.length
                · rw [c2.frame.same i hil] at hgi
                  exact c1.keeps i hi.1 t2 hgi
                · exact c2.keeps i (by omega) t2 hgi
          · rw [setNode_eq, c2.frame.same r1 e3, ht']
            rfl
          · intro f
            rw [← (hgo.eval_frame S c1.frame f), ← c2.eval f]
            refine evalT_congr S (A := fun i => g.length ≤ i) (fun i hi => ?_)
              (fun i hi t2 ht2 j hj => (c2.closed i hi t2 ht2 j hj).1) f o' (by omega)
            exact setNode_ne _ _ (by omega)
          · have key : ∀ x x', Stands S h g r1 x x' → Stands S h (setNode g2 r1
                (fun t => { t with next := some o', buffer := none })) r1 x x' := by
              intro x x' hs
              refine hs.transfer c1.above (by rw [setNode_length]; exact hlen) (fun i h1 h2 => ?_)
              rw [setNode_ne _ _ (by omega)]
              exact c2.frame.same i h2
            revert hsd
            cases t.data <;> cases t'.data <;> simp only [StandsData] <;> try exact id
            exact fun h => ⟨h.1, h.2.1.mono key, h.2.2.mono key⟩

/-- The function of a node of one argument. -/
theorem evalNode_unary (S : TSem V) {rec : Nat → Except Err V} {t : TNode V}
    (hu : t.data.unary = true) :
    evalNode S rec t = match t.next with
      | some x => t.data.app S (rec x)
      | none => t.data.fn S t.buffer := by
  cases hd : t.data <;> rw [hd] at hu <;> simp only [TData.unary, Bool.false_eq_true] at hu
  all_goals
    unfold evalNode
    rw [hd]
    unfold evalArg
    cases hn : t.next with
    | none =>
      cases hb : t.buffer <;> simp [TData.fn]
    | some x =>
      cases hr : rec x <;> simp [hr, TData.fn, TData.app]

theorem isChain_eval (S : TSem V) {h : THeap V} {r ds b} (hc : IsChain h r ds b)
    (hu : ∀ d ∈ ds, d.unary = true) : ∀ f, ds.length ≤ f → evalT S h f r = chainFn S ds b := by
  induction hc with
  | @last r t ht hn =>
    intro f hf
    cases f with
    | zero => simp at hf
    | succ f =>
      unfold evalT
      rw [ht]
      dsimp only
      rw [evalNode_unary S (hu _ (by simp)), hn]
      rfl
  | @cons r t x ds b ht hn hc ih =>
    intro f hf
    cases f with
    | zero => simp at hf
    | succ f =>
      unfold evalT
      rw [ht]
      dsimp only
      rw [evalNode_unary S (hu _ (by simp)), hn]
      dsimp only
      rw [ih (fun d hd => hu d (by simp [hd])) f (by simpa using hf)]
      cases hc <;> rfl

theorem isChain_ne_nil {h : THeap V} {r ds b} (hc : IsChain h r ds b) : ds ≠ [] := by
  cases hc <;> simp

theorem isChain_last {h : THeap V} {r ds b} (hc : IsChain h r ds b) :
    ∃ x t, h[x]? = some t ∧ t.next = none ∧ t.buffer = b ∧
      ∀ n, ds.length ≤ n → lastOf h n r = .ok x := by
  induction hc with
  | @last r t ht hn =>
    refine ⟨r, t, ht, hn, rfl, ?_⟩
    intro n h1
    cases n with
    | zero => simp at h1
    | succ n => unfold lastOf; simp [ht, hn]
  | @cons r t x ds b ht hn hc ih =>
    obtain ⟨y, t', h1, h2, h3, h4⟩ := ih
    refine ⟨y, t', h1, h2, h3, ?_⟩
    intro n h5
    cases n with
    | zero => simp at h5
    | succ n =>
      unfold lastOf
      simp only [ht, hn]
      exact h4 n (by simpa using h5)

theorem isChain_frame {h h' : THeap V} (hf : TFrame h h') {r ds b} (hc : IsChain h r ds b) :
    IsChain h' r ds b := by
  induction hc with
  | @last r t ht hn =>
    exact .last ((hf.same r (List.getElem?_eq_some_iff.1 ht).1).trans ht) hn
  | @cons r t x ds b ht hn hc ih =>
    exact .cons ((hf.same r (List.getElem?_eq_some_iff.1 ht).1).trans ht) hn ih

/-- A chain of transforms of one argument can be copied. -/
theorem isChain_good {h : THeap V} {r ds b} (hc : IsChain h r ds b)
    (hu : ∀ d ∈ ds, d.unary = true) : Good h r := by
  refine ⟨fun i => ∃ ds b, IsChain h i ds b ∧ ∀ d ∈ ds, d.unary = true, ⟨ds, b, hc, hu⟩, ?_⟩
  rintro i ⟨ds, b, hc, hu⟩
  have key : ∀ t : TNode V, t.data.unary = true → t.KeepsOperands ∧ t.refs = t.next.toList := by
    intro t ht
    cases hd : t.data <;> rw [hd] at ht <;> simp [TData.unary] at ht <;>
      simp [TNode.KeepsOperands, TNode.refs, hd]
  cases hc with
  | @last _ t ht hn =>
    obtain ⟨k1, k2⟩ := key t (hu _ (by simp))
    exact ⟨t, ht, k1, fun j hj => by rw [k2, hn] at hj; simp at hj⟩
  | @cons _ t x ds b ht hn hc' =>
    obtain ⟨k1, k2⟩ := key t (hu _ (by simp))
    refine ⟨t, ht, k1, fun j hj => ?_⟩
    rw [k2, hn] at hj
    simp at hj
    subst hj
    exact ⟨ds, b, hc', fun d hd => hu d (by simp [hd])⟩

theorem standsData_unary {S : TSem V} {h h' : THeap V} {k : Nat} {d d' : TData V}
    (hs : StandsData S h h' k d d') (hu : d.unary = true) : d'.unary = true ∧
      (∀ v, d'.fn S v = d.fn S v) ∧ (∀ e, d'.app S e = d.app S e) := by
  cases d <;> cases d' <;> simp only [StandsData] at hs <;> simp only [TData.unary, Bool.false_eq_true] at hu
  · refine ⟨rfl, fun v => ?_, fun e => ?_⟩
    · cases v <;> simp only [TData.fn, hs.2]
    · cases e <;> simp only [TData.app, TData.fn, hs.2]
  · rw [hs]; exact ⟨rfl, fun _ => rfl, fun _ => rfl⟩
  · rw [hs.1, hs.2.1, hs.2.2]; exact ⟨rfl, fun _ => rfl, fun _ => rfl⟩

theorem copyT_chain (S : TSem V) : ∀ (n : Nat) {h : THeap V} {r ds b h' r'},
    copyT S n h r = (h', .ok r') → IsChain h r ds b → (∀ d ∈ ds, d.unary = true) →
    IsChain h' r' ds b := by
  intro n
  induction n with
  | zero => intro h r ds b h' r' hc; simp [copyT] at hc
  | succ n ih =>
    intro h r ds b h' r' hc hch hu
    have hdat : ∀ (t : TNode V), t.data.unary = true → ∀ (g : THeap V),
        copyData S (copyT S n) g h.length t.data =
          (setNode g h.length (fun t' => { t' with data := t.data }), .ok ()) := by
      intro t ht g
      cases hd : t.data <;> rw [hd] at ht <;> simp [TData.unary] at ht <;> rfl
    unfold copyT at hc
    split at hc
    · simp at hc
    rename_i t ht
    dsimp only at hc
    split at hc
    rotate_left
    · simp at hc
    split at hc
    · simp at hc
    rename_i bs _
    have hn1 : (setNode (h ++ [⟨none, none, t.buffer, t.data.fresh⟩]) h.length
        (fun t => { t with base := some bs }))[h.length]? =
        some ⟨some bs, none, t.buffer, t.data.fresh⟩ := by
      rw [setNode_eq]; simp
    have hf1 : TFrame h (setNode (h ++ [⟨none, none, t.buffer, t.data.fresh⟩]) h.length
        (fun t => { t with base := some bs })) := (TFrame.append h _).set (Nat.le_refl _) _
    generalize setNode (h ++ [⟨none, none, t.buffer, t.data.fresh⟩]) h.length
      (fun t => { t with base := some bs }) = h1 at hc hn1 hf1
    have hk1 := (List.getElem?_eq_some_iff.1 hn1).1
    cases hch with
    | @last _ t0 ht0 hn =>
      rw [ht] at ht0
      cases ht0
      rw [hn] at hc
      simp only [copyNext, hdat t (hu _ (by simp)), Prod.mk.injEq, Except.ok.injEq] at hc
      obtain ⟨rfl, rfl⟩ := hc
      refine IsChain.last (t := ⟨some bs, none, t.buffer, t.data⟩) ?_ rfl
      rw [setNode_eq, hn1]; rfl
    | @cons _ t0 x ds b ht0 hn hch' =>
      rw [ht] at ht0
      cases ht0
      rw [hn] at hc
      simp only [copyNext] at hc
      cases hN : copyT S n h1 x with
      | mk h2 res =>
        rw [hN] at hc
        cases res with
        | error e => simp at hc
        | ok x' =>
          simp only [hdat t (hu _ (by simp)), Prod.mk.injEq, Except.ok.injEq] at hc
          obtain ⟨rfl, rfl⟩ := hc
          have hch2 := ih hN (isChain_frame hf1 hch') (fun d hd => hu d (by simp [hd]))
          have hfr := copyT_frame S n h1 x
          have hup : NextUp h1.length (copyT S n h1 x).1 := copyT_nextUp S n x (Nat.le_refl _) (by
            intro i t j hi ht
            rw [List.getElem?_eq_none hi] at ht
            cases ht)
          have hix := copyT_index S hN
          rw [hN] at hfr hup
          dsimp only at hfr hup
          have hgen : ∀ {y ds b}, IsChain h2 y ds b → h1.length ≤ y → ∀ f g : TNode V → TNode V,
              IsChain (setNode (setNode h2 h.length f) h.length g) y ds b := by
            intro y ds b hcy
            induction hcy with
            | @last y t ht hn =>
              intro hy f g
              refine .last ?_ hn
              rw [setNode_ne _ _ (by omega), setNode_ne _ _ (by omega)]
              exact ht
            | @cons y t z ds b ht hn _ ih =>
              intro hy f g
              refine .cons ?_ hn (ih (hup y t z hy ht hn) f g)
              rw [setNode_ne _ _ (by omega), setNode_ne _ _ (by omega)]
              exact ht
          refine IsChain.cons (t := ⟨some bs, some x', t.buffer, t.data⟩) (x := x') ?_ rfl
            (hgen hch2 (by omega) _ _)
          rw [setNode_eq, setNode_eq, hfr.same _ hk1, hn1]
          rfl

theorem isChain_bind {h : THeap V} {r ds b} (hc : IsChain h r ds b) {x t} (hx : h[x]? = some t)
    (hn : t.next = none) (hl : ∃ n, lastOf h n r = .ok x) (v : V) :
    IsChain (setNode h x (fun t => { t with buffer := some v })) r ds (some v) := by
  induction hc with
  | @last r t' ht' hn' =>
    obtain ⟨n, hl⟩ := hl
    cases n with
    | zero => simp [lastOf] at hl
    | succ n =>
      unfold lastOf at hl
      simp [ht', hn'] at hl
      subst hl
      refine IsChain.last (t := { t' with buffer := some v }) ?_ hn'
      rw [setNode_eq, ht']
      rfl
  | @cons r t' y ds b ht' hn' hc ih =>
    obtain ⟨n, hl⟩ := hl
    cases n with
    | zero => simp [lastOf] at hl
    | succ n =>
      unfold lastOf at hl
      simp [ht', hn'] at hl
      refine .cons ?_ hn' (ih ⟨n, hl⟩)
      rw [setNode_ne _ _ ?_]
      · exact ht'
      · rintro rfl
        rw [hx] at ht'
        cases ht'
        rw [hn] at hn'
        cases hn'

theorem isChain_bound {h : THeap V} {r ds b} (hc : IsChain h r ds b)
    (hu : ∀ d ∈ ds, d.unary = true) {n : Nat} (hn : ds.length ≤ n) :
    boundOf h n r = .ok b.isSome := by
  obtain ⟨x, t, h1, _, h3, h4⟩ := isChain_last hc
  cases n with
  | zero => exact absurd (Nat.le_zero.1 hn) (by simpa using isChain_ne_nil hc)
  | succ n =>
    have hhd : ∃ t, h[r]? = some t ∧ t.data.unary = true := by
      cases hc with
      | last ht _ => exact ⟨_, ht, hu _ (by simp)⟩
      | cons ht _ _ => exact ⟨_, ht, hu _ (by simp)⟩
    obtain ⟨t0, ht0, hut⟩ := hhd
    unfold boundOf
    rw [ht0]
    dsimp only
    rw [h4 _ hn]
    cases hd : t0.data <;> rw [hd] at hut <;> simp [TData.unary] at hut <;> simp [h1, h3]

/-! ### When copying succeeds -/

theorem baseOf_frame {h h' : THeap V} (hf : TFrame h h') :
    ∀ n r b, baseOf h n r = .ok b → baseOf h' n r = .ok b := by
  intro n
  induction n with
  | zero => intro r b hb; simp [baseOf] at hb
  | succ n ih =>
    intro r b hb
    unfold baseOf at hb ⊢
    split at hb
    · simp at hb
    rename_i t ht
    rw [hf.same r (List.getElem?_eq_some_iff.1 ht).1, ht]
    dsimp only
    split at hb
    · exact hb
    · rename_i x hx; exact ih x b hb

theorem okDepth_frame (S : TSem V) {h h' : THeap V} (hf : TFrame h h') :
    ∀ n r, OkDepth S h n r → OkDepth S h' n r := by
  intro n
  induction n with
  | zero => intro r hr; exact hr
  | succ n ih =>
    rintro r ⟨t, ht, h1, h2, ⟨b, h3⟩, h4⟩
    exact ⟨t, (hf.same r (List.getElem?_eq_some_iff.1 ht).1).trans ht, h1, h2,
      ⟨b, baseOf_frame hf _ r b h3⟩, fun j hj => ih j (h4 j hj)⟩

theorem copyT_ok (S : TSem V) : ∀ n (h : THeap V) r, OkDepth S h n r →
    (copyT S n h r).2 = .ok h.length := by
  intro n
  induction n with
  | zero => intro h r hr; exact hr.elim
  | succ n ih =>
    rintro h r ⟨t, ht, h1, h2, ⟨b, h3⟩, h4⟩
    unfold copyT
    rw [ht]
    dsimp only
    rw [if_pos h1, baseOf_frame (TFrame.append h _) _ r b h3]
    dsimp only
    have hf1 : TFrame h (setNode (h ++ [⟨none, none, t.buffer, t.data.fresh⟩]) h.length
        (fun t => { t with base := some b })) := (TFrame.append h _).set (Nat.le_refl _) _
    generalize setNode (h ++ [⟨none, none, t.buffer, t.data.fresh⟩]) h.length
      (fun t => { t with base := some b }) = g at hf1
    have hN : TFrame h (copyNext (copyT S n) g h.length t.next).1 ∧
        (copyNext (copyT S n) g h.length t.next).2 = .ok () := by
      refine ⟨copyNext_frame (copyT_frame S n) hf1 (Nat.le_refl _) _, ?_⟩
      cases hn : t.next with
      | none => rfl
      | some x =>
        simp only [copyNext]
        have := ih g x (okDepth_frame S hf1 _ _ (h4 x (by simp [TNode.refs, hn])))
        generalize copyT S n g x = rc at this
        obtain ⟨g', res⟩ := rc
        dsimp only at this
        subst this
        rfl
    generalize copyNext (copyT S n) g h.length t.next = rc at hN
    obtain ⟨g1, res⟩ := rc
    obtain ⟨hf2, hres⟩ := hN
    dsimp only at hf2 hres
    subst hres
    dsimp only
    have hD : (copyData S (copyT S n) g1 h.length t.data).2 = .ok () := by
      cases hd : t.data with
      | arith op l o =>
        simp only [hd] at h2
        simp only [copyData]
        have hL : TFrame h (copyLeft S (copyT S n) g1 h.length l).1 ∧
            (copyLeft S (copyT S n) g1 h.length l).2 = .ok () := by
          refine ⟨copyLeft_frame S (copyT_frame S n) hf2 (Nat.le_refl _) _, ?_⟩
          cases l with
          | ref x =>
            simp only [copyLeft]
            have := ih g1 x (okDepth_frame S hf2 _ _ (h4 x (by simp [TNode.refs, hd, Opd.refs])))
            generalize copyT S n g1 x = rc at this
            obtain ⟨g', res⟩ := rc
            dsimp only at this
            subst this
            rfl
          | _ => simp only [copyLeft, h2, if_true]
        generalize copyLeft S (copyT S n) g1 h.length l = rc at hL
        obtain ⟨g2, res⟩ := rc
        obtain ⟨hf3, hres⟩ := hL
        dsimp only at hf3 hres
        subst hres
        dsimp only
        cases o with
        | ref x =>
          simp only [copyRight]
          have := ih g2 x (okDepth_frame S hf3 _ _ (h4 x (by simp [TNode.refs, hd, Opd.refs])))
          generalize copyT S n g2 x = rc at this
          obtain ⟨g', res⟩ := rc
          dsimp only at this
          subst this
          rfl
        | _ => simp only [copyRight, h2, if_true]
      | _ => rfl
    generalize copyData S (copyT S n) g1 h.length t.data = rc at hD
    obtain ⟨g2, res⟩ := rc
    dsimp only at hD
    subst hD
    rfl

/-! ### The result is fresh -/

theorem refs_setNode {h : THeap V} {k : Nat}
    (hc : ∀ i, k ≤ i → ∀ t, h[i]? = some t → ∀ j ∈ t.refs, k ≤ j) (x : Nat) {f}
    (hf : ∀ t : TNode V, (f t).refs = t.refs) :
    ∀ i, k ≤ i → ∀ t, (setNode h x f)[i]? = some t → ∀ j ∈ t.refs, k ≤ j := by
  intro i hi t ht j hj
  by_cases hx : x = i
  · subst hx
    rw [setNode_eq] at ht
    cases ho : h[x]? with
    | none => rw [ho] at ht; cases ht
    | some t0 =>
      rw [ho] at ht
      cases ht
      rw [hf] at hj
      exact hc x hi t0 ho j hj
  · rw [setNode_ne _ _ hx] at ht
    exact hc i hi t ht j hj

theorem callT_closed (S : TSem V) {n : Nat} {h : THeap V} {r o h' r'} (hg : Good h r)
    (hgo : ∀ x ∈ o.refs, Good h x) (hc : callT S n h r o = (h', .ok r')) : r' = h.length ∧
    ∀ i, h.length ≤ i → ∀ t, h'[i]? = some t → ∀ j ∈ t.refs, h.length ≤ j := by
  cases o with
  | ref x =>
    obtain ⟨h1, h2, _⟩ := callT_ref_spec S hg (hgo x (by simp [Opd.refs])) hc
    exact ⟨h1, h2⟩
  | val v =>
    unfold callT at hc
    split at hc
    · simp at hc
    split at hc
    · simp at hc
    cases hC : copyT S n h r with
    | mk g res =>
      rw [hC] at hc
      cases res with
      | error e => simp at hc
      | ok r1 =>
        have c1 := copyT_spec S n h r g r1 hC hg
        dsimp only at hc
        split at hc
        rotate_left
        · simp at hc
        split at hc
        · simp at hc
        · simp at hc
        split at hc
        · simp at hc
        split at hc
        rotate_left
        · simp at hc
        simp only [Prod.mk.injEq, Except.ok.injEq] at hc
        obtain ⟨rfl, rfl⟩ := hc
        refine ⟨c1.new, refs_setNode (fun i hi t ht j hj => (c1.closed i hi t ht j hj).1) _
          (fun t => rfl)⟩
  | none =>
    unfold callT at hc
    split at hc
    · simp at hc
    split at hc
    · simp at hc
    split at hc <;> simp at hc

theorem combine_closed (S : TSem V) {n : Nat} {h : THeap V} {op h' r'}
    (hg : ∀ x ∈ op.operands, Good h x) (hc : combine S n h op = (h', .ok r')) : r' = h.length ∧
    ∀ i, h.length ≤ i → ∀ t, h'[i]? = some t → ∀ j ∈ t.refs, h.length ≤ j := by
  have hA : ∀ {op l rt}, (∀ x ∈ l.refs, Good h x) → (∀ x ∈ rt.refs, Good h x) →
      newArith S n h op l rt = (h', .ok r') → r' = h.length ∧
      ∀ i, h.length ≤ i → ∀ t, h'[i]? = some t → ∀ j ∈ t.refs, h.length ≤ j :=
    fun h1 h2 h3 => ⟨(newArith_spec S h1 h2 h3).1, newArith_closed S h1 h2 h3⟩
  have hM : ∀ {r o}, Good h r → (∀ x ∈ o.refs, Good h x) →
      measureMul S n h r o = (h', .ok r') → r' = h.length ∧
      ∀ i, h.length ≤ i → ∀ t, h'[i]? = some t → ∀ j ∈ t.refs, h.length ≤ j := by
    intro r o hr ho hm
    have hr' : ∀ x ∈ (Opd.ref r : Opd V).refs, Good h x := by
      intro x hx; simp [Opd.refs] at hx; exact hx ▸ hr
    unfold measureMul at hm
    split at hm
    · split at hm
      · exact callT_closed S hr ho hm
      · exact hA hr' ho hm
    · exact hA hr' ho hm
  cases op with
  | copy r =>
    have c := copyT_spec S n h r h' r' hc (hg r (by simp [TOp.operands]))
    exact ⟨c.new, fun i hi t ht j hj => (c.closed i hi t ht j hj).1⟩
  | call r o =>
    exact callT_closed S (hg r (by simp [TOp.operands]))
      (fun x hx => hg x (by simp [TOp.operands, hx])) hc
  | bin b r o =>
    have h1 : Good h r := hg r (by simp [TOp.operands])
    have h1' : ∀ x ∈ (Opd.ref r : Opd V).refs, Good h x := by
      intro x hx; simp [Opd.refs] at hx; exact hx ▸ h1
    have h2 : ∀ x ∈ o.refs, Good h x := fun x hx => hg x (by simp [TOp.operands, hx])
    cases b <;> simp only [combine, binT] at hc
    case mul =>
      split at hc
      · exact hM h1 h2 hc
      · exact hA h1' h2 hc
    all_goals exact hA h1' h2 hc
  | rbin b v r =>
    have h1 : Good h r := hg r (by simp [TOp.operands])
    have h1' : ∀ x ∈ (Opd.ref r : Opd V).refs, Good h x := by
      intro x hx; simp [Opd.refs] at hx; exact hx ▸ h1
    have h2 : ∀ x ∈ (Opd.val v : Opd V).refs, Good h x := by simp [Opd.refs]
    cases b <;> simp only [combine, rbinT] at hc
    case mul =>
      split at hc
      · exact hM h1 h2 hc
      · exact hA h2 h1' hc
    case div => simp at hc
    case add => exact hA h1' h2 hc
    case sub => exact hA h2 h1' hc
  | neg r =>
    have h1' : ∀ x ∈ (Opd.ref r : Opd V).refs, Good h x := by
      intro x hx; simp [Opd.refs] at hx; exact hx ▸ hg r (by simp [TOp.operands])
    simp only [combine, negT] at hc
    exact hA h1' (by simp [Opd.refs]) hc

end Verif
