import Verif.Lemmas.Matrices
import Verif.Props.Redraw
/-
C93: matrices given as Matrix.
-/

namespace Verif

open Matrix

variable {G : Type}

/-- Arrays of shape (4,4) are multiplied, projection · view · model. -/
theorem plain_matrices_fit (b : Studio MatVal G) (hb : b.mul = mulVal) (c : RCall MatVal)
    (s : Canvassed MatVal G) (p v m : Matrix (Fin 4) (Fin 4) ℚ)
    (hp : c.proj.getD s.proj = .plain p) (hv : c.view.getD s.view = .plain v)
    (hm : c.model.getD s.model = .plain m) :
    MatricesFit b c s ∧ (takeMatrices b c s).1.transform = some (.plain (p * v * m)) := by
  constructor
  · refine ⟨.plain (p * v), .plain (p * v * m), ?_, ?_⟩
    · rw [hb, hp, hv]; rfl
    · rw [hb, hm]; rfl
  · simp only [takeMatrices, hb, hp, hv, hm]; rfl

/-- A Matrix made of the 16 float32 of an array holds them; made of a float64 array, as numpy makes them, it
holds twice as many numbers, and tuples, lists and transposes are refused. -/
theorem matrix_holds_partial (halves : ℚ → ℚ × ℚ) (xs ys : List ℚ) (d : MatrixData) :
    (matrixInit halves d = .ok ys → (∃ zs, d = .floats zs ∧ ys = zs) ∨
      ∃ zs, d = .doubles zs ∧ ys.length = 2 * zs.length) ∧
    matrixInit halves (.floats xs) = .ok xs ∧
    matrixInit halves (.sequence xs) = .error .typeError ∧
    matrixInit halves (.strided xs) = .error .valueError := by
  refine ⟨fun h => ?_, rfl, rfl, rfl⟩
  cases d with
  | floats zs => exact Or.inl ⟨zs, rfl, (Except.ok.inj h).symm⟩
  | doubles zs =>
    refine Or.inr ⟨zs, rfl, ?_⟩
    rw [← Except.ok.inj h]
    clear h
    induction zs with
    | nil => rfl
    | cons z zs ih =>
      simp only [List.flatMap_cons, List.length_append, ih, List.length_cons, List.length_nil]
      omega
  | strided zs => cases h
  | sequence zs => cases h

/-- A Matrix of 16 numbers, in any role and with any other matrices, is never used: the render draws
nothing, and raises nothing (but for the caps of Paths). -/
theorem matrix_never_used (b : Studio MatVal G) (hb : b.mul = mulVal) (k : VKind) (c : RCall MatVal)
    (s : Canvassed MatVal G) (h : UsesNotFour c s) (hk : k ≠ .paths) :
    (renderPiecewise b k c s).2 = .ok () ∧
    ∀ v f, f ≠ .cap → (renderPiecewise b k c s).1.picture v f = s.picture v f := by
  have ht : (takeMatrices b c s).1.transform = none := by
    simp only [takeMatrices, hb]
    rcases h with h | h | h
    · exact mul_notFour_left h _
    · exact mul_notFour_right h _
    · exact mul_notFour_last h
  obtain ⟨h1, h2⟩ := unfit_draws_nothing b k c s ht
  exact ⟨h1.resolve_right (fun h => hk h.1), h2⟩

/-- … and once given as the model it keeps the visual from being drawn: whatever is assigned and rendered
afterwards, all pictures stay as they were, until another model is given. -/
theorem matrix_stops_drawing (b : Studio MatVal G) (hb : b.mul = mulVal) (k : VKind) :
    ∀ (hs : List (Happening MatVal)) (s : Canvassed MatVal G), NotFour s.model → ModelLeft hs →
    ∀ v f, f ≠ .cap → (happened b k s hs).picture v f = s.picture v f
  | [], _, _, _, _, _, _ => rfl
  | .assign a :: hs, s, h, hl, v, f, hf => by
    exact matrix_stops_drawing b hb k hs { s with vars := a.apply s.vars } h
      (fun c hc => hl c (List.mem_cons_of_mem _ hc)) v f hf
  | .render c :: hs, s, h, hl, v, f, hf => by
    have hc := hl c List.mem_cons_self
    have hm : (renderPiecewise b k c s).1.model = s.model := by
      rw [(redraw_keeps b k c s).2.2.2.1, hc]; rfl
    have ht : (takeMatrices b c s).1.transform = none := by
      simp only [takeMatrices, hb, hc, Option.getD_none]
      exact mul_notFour_last h
    have := matrix_stops_drawing b hb k hs (renderPiecewise b k c s).1 (by rw [hm]; exact h)
      (fun c hc => hl c (List.mem_cons_of_mem _ hc)) v f hf
    exact this.trans ((unfit_draws_nothing b k c s ht).2 v f hf)

/-- For the examples: matrices that do not move the points. -/
def matrixStudio : Studio MatVal Evald where
  mul := mulVal
  place := fun _ p => p
  asRows := reshapeThree
  centre := fun ps => (ps[0]?).getD []
  order := fun keys => List.range keys.length
  outlines := fun _ rows _ _ angles => .ok (rows.map (fun _ => angles))
  paints := fun _ => .ok ()
  strokes := fun _ => .ok ()

/-- One point that was just made. -/
def matrixPoint : Canvassed MatVal Evald :=
  ⟨plainVars [[3, 4, 5]], 0, [[0, 0, 0]], [], .plain 1, .plain 1, .plain 1, some (.plain 1), []⟩

/-- C93 fails: the identity as an array draws the point, the identity as a Matrix draws nothing, and nor do
the renders after it. -/
theorem matrix_given_fails :
    let eye : List ℚ := [1, 0, 0, 0, 0, 1, 0, 0, 0, 0, 1, 0, 0, 0, 0, 1]
    matrixInit (fun x => (x, x)) (.floats eye) = .ok eye ∧
    (renderPiecewise matrixStudio .points ⟨1, some (.plain 1), none, none⟩ matrixPoint).1.picture 1 .shapes =
      .shapes [[[3, 4]]] ∧
    (renderPiecewise matrixStudio .points ⟨1, some (.flat true eye), none, none⟩ matrixPoint).2 = .ok () ∧
    (renderPiecewise matrixStudio .points ⟨1, some (.flat true eye), none, none⟩ matrixPoint).1.picture 1 .shapes =
      .blank ∧
    (happened matrixStudio .points matrixPoint [.render ⟨1, some (.flat true eye), none, none⟩,
      .render ⟨1, none, some (.plain 1), some (.plain 1)⟩]).picture 1 .shapes = .blank := by
  refine ⟨rfl, rfl, rfl, rfl, rfl⟩

example : NotFour (.flat true [1, 0, 0, 0, 0, 1, 0, 0, 0, 0, 1, 0, 0, 0, 0, 1]) := by
  simp [NotFour]

example : matrixInit (fun x => (x / 2, x)) (.doubles [4, 6]) = .ok [4 / 2, 4, 6 / 2, 6] := rfl

end Verif
