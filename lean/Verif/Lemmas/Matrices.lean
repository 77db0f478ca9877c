import Verif.Spec.Matrices
import Verif.Lemmas.Redraw
/-
Products with a Matrix, for C93.
-/

namespace Verif

open Matrix

theorem mul_notFour_left {a b : MatVal} (h : NotFour a) (c : MatVal) :
    (mulVal a b).bind (fun pv => mulVal pv c) = none := by
  cases a with
  | plain a => exact h.elim
  | number x => exact h.elim
  | flat o d =>
    cases b with
    | plain m => simp only [mulVal, if_neg h]; rfl
    | number x => rfl
    | flat o' e =>
      simp only [mulVal]
      split
      · rfl
      · split
        · cases c <;> rfl
        · rfl

theorem mul_notFour_right {a b : MatVal} (h : NotFour b) (c : MatVal) :
    (mulVal a b).bind (fun pv => mulVal pv c) = none := by
  cases b with
  | plain a => exact h.elim
  | number x => exact h.elim
  | flat o d =>
    cases a with
    | plain m => simp only [mulVal, if_neg h]; rfl
    | number x => rfl
    | flat o' e =>
      simp only [mulVal]
      split
      · rfl
      · split
        · cases c <;> rfl
        · rfl

theorem mul_notFour_last {a b c : MatVal} (h : NotFour c) :
    (mulVal a b).bind (fun pv => mulVal pv c) = none := by
  have key : ∀ pv, (∀ o d, pv = .flat o d → o = false ∧ d.length = 4) → mulVal pv c = none := by
    intro pv hpv
    cases c with
    | plain a => exact h.elim
    | number x => exact h.elim
    | flat o d =>
      cases pv with
      | plain m => simp only [mulVal, if_neg h]
      | number x => rfl
      | flat o' e =>
        obtain ⟨h1, h2⟩ := hpv o' e rfl
        subst h1
        have hne : e.length ≠ d.length := by rw [h2]; exact fun e => h e.symm
        simp only [mulVal, Bool.false_and, if_neg hne]
        rfl
  cases hab : mulVal a b with
  | none => rfl
  | some pv =>
    simp only [Option.bind_some]
    apply key
    rintro o d rfl
    cases a <;> cases b <;> simp only [mulVal] at hab
    all_goals (try split at hab)
    all_goals (try split at hab)
    all_goals (first | cases hab | skip)
    all_goals simp

/-- Nothing is drawn when the product does not exist. -/
theorem unfit_draws_nothing {M G : Type} (b : Studio M G) (k : VKind) (c : RCall M) (s : Canvassed M G)
    (ht : (takeMatrices b c s).1.transform = none) :
    ((renderPiecewise b k c s).2 = .ok () ∨ k = .paths ∧ dget s.pictures c.viewport = none ∧
      ∃ e, s.vars.caps ⟨c.viewport, s.positions, s.items⟩ = .error e ∧
        (renderPiecewise b k c s).2 = .error e) ∧
    ∀ v f, f ≠ .cap → (renderPiecewise b k c s).1.picture v f = s.picture v f := by
  rw [redraw_eq]
  unfold ensurePicture
  have hd : dget (takeMatrices b c s).1.pictures c.viewport = dget s.pictures c.viewport := rfl
  rw [hd]
  have key : ∀ p : Picture G, (∀ f, f ≠ .cap → p f = .blank) → dget s.pictures c.viewport = none →
      ∀ v f, f ≠ .cap → ({ (takeMatrices b c s).1 with
        pictures := dset (takeMatrices b c s).1.pictures c.viewport p } : Canvassed M G).picture v f =
        s.picture v f := by
    intro p hp hn v f hf
    by_cases hv : c.viewport = v
    · subst hv
      simp only [Canvassed.picture, dget_dset_self, hn, Option.getD_some, Option.getD_none]
      exact hp f hf
    · simp only [Canvassed.picture, dget_dset_ne _ _ hv]; rfl
  cases hdd : dget s.pictures c.viewport with
  | some p =>
    simp only [drawIfFits, ht]
    exact ⟨Or.inl trivial, fun _ _ _ => rfl⟩
  | none =>
    by_cases hk : k = .paths
    · simp only [if_pos hk]
      have hcv : (takeMatrices b c s).1.vars.caps
          ⟨(takeMatrices b c s).1.viewport, (takeMatrices b c s).1.positions, (takeMatrices b c s).1.items⟩
          = s.vars.caps ⟨c.viewport, s.positions, s.items⟩ := rfl
      rw [hcv]
      cases hc : s.vars.caps ⟨c.viewport, s.positions, s.items⟩ with
      | error e => exact ⟨Or.inr ⟨hk, trivial, e, rfl, rfl⟩, fun _ _ _ => rfl⟩
      | ok n =>
        simp only [drawIfFits, ht]
        refine ⟨Or.inl trivial, key _ ?_ hdd⟩
        intro f hf; simp [Picture.put, Picture.blank, hf]
    · simp only [if_neg hk, drawIfFits, ht]
      exact ⟨Or.inl trivial, key _ (fun _ _ => rfl) hdd⟩

end Verif
