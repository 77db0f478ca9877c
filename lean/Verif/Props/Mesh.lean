import Verif.Spec.Mesh
import Verif.Lemmas.Dtype
import Mathlib.Tactic.Ring
import Mathlib.Tactic.Linarith
import Mathlib.Algebra.Order.Ring.Rat
import Mathlib.Algebra.Order.Field.Basic
/-! # C74: reading meshes, C75: clamping and normalising -/

namespace Verif

theorem splitSpace_ne_nil (s : List Char) : splitSpace s ≠ [] := by
  cases s with
  | nil => simp [splitSpace]
  | cons a s =>
    unfold splitSpace
    split
    · simp
    · split <;> simp

theorem splitSpace_append {w : List Char} (hw : ∀ c ∈ w, isSpace c = false) {c : Char}
    (hc : isSpace c = true) (s : List Char) : splitSpace (w ++ c :: s) = w :: splitSpace s := by
  induction w with
  | nil => simp [splitSpace, hc]
  | cons a w ih =>
    have ha := hw a List.mem_cons_self
    have h := ih (fun c h => hw c (List.mem_cons_of_mem _ h))
    simp [splitSpace, ha, h]

theorem words_line {ws : List Text} (hne : ws ≠ []) (hw : ∀ w ∈ ws, IsWord w) :
    words (joinText ' ' ws ++ ['\n']) = ws := by
  induction ws with
  | nil => exact absurd rfl hne
  | cons w ws ih =>
    have h1 := hw w List.mem_cons_self
    cases ws with
    | nil =>
      unfold words joinText
      rw [splitSpace_append h1.2 (by decide)]
      have : splitSpace [] = [[]] := rfl
      rw [this, List.filter_cons_of_pos (by simp [h1.1]), List.filter_cons_of_neg (by simp)]
      rfl
    | cons v ws =>
      have h2 := ih (by simp) (fun x hx => hw x (List.mem_cons_of_mem _ hx))
      unfold joinText
      rw [List.append_assoc, List.cons_append]
      unfold words at h2 ⊢
      rw [splitSpace_append h1.2 (by decide), List.filter_cons_of_pos (by simp [h1.1]), h2]

theorem corner_word {K : Type} {S : Spelling K} {num idx} (hS : S.OK num idx) (c : Corner) :
    IsWord (S.corner c) := by
  have hs : isSpace '/' = false := by decide
  have h := fun n => (hS.iword n).1
  obtain ⟨v, t, n⟩ := c
  refine ⟨?_, ?_⟩
  · cases t <;> cases n <;> simp [Spelling.corner, joinText, (h v).1]
  · intro ch hch
    cases t <;> cases n <;>
      simp only [Spelling.corner, joinText, List.mem_append, List.mem_cons, List.nil_append] at hch
    · exact (h v).2 _ hch
    · rcases hch with hch | rfl | rfl | hch
      · exact (h v).2 _ hch
      · exact hs
      · exact hs
      · exact (h _).2 _ hch
    · rcases hch with hch | rfl | hch
      · exact (h v).2 _ hch
      · exact hs
      · exact (h _).2 _ hch
    · rcases hch with hch | rfl | hch | rfl | hch
      · exact (h v).2 _ hch
      · exact hs
      · exact (h _).2 _ hch
      · exact hs
      · exact (h _).2 _ hch

theorem corner_parts {K : Type} {S : Spelling K} {num idx} (hS : S.OK num idx) (c : Corner) :
    facePart idx 0 (S.corner c) = some c.v ∧ facePart idx 1 (S.corner c) = c.t ∧
    facePart idx 2 (S.corner c) = c.n := by
  have h := fun n => (hS.iword n).2
  obtain ⟨v, t, n⟩ := c
  unfold facePart Spelling.corner
  cases t <;> cases n <;> dsimp only
  all_goals
    rw [splitChars_join (by simp) (by simp [h])]
    simp [hS.iread, hS.empty]

theorem mapM_corners {α : Type} {K : Type} {S : Spelling K} (g : Text → Option α) (f : Corner → Option α)
    (hg : ∀ c, g (S.corner c) = f c) (cs : List Corner) :
    (cs.map S.corner).mapM g = cs.mapM f := by
  induction cs with
  | nil => rfl
  | cons c cs ih => simp only [List.map_cons, List.mapM_cons, hg, ih]

theorem mapM_total {α β : Type} (f : α → β) (l : List α) :
    l.mapM (fun a => some (f a)) = some (l.map f) := by
  induction l with
  | nil => rfl
  | cons a l ih => simp [List.mapM_cons, ih]

/-- C74, the part that works: the lines of a Wavefront file are read as what they say. Every vertex,
texture coordinate and normal is found, in order, and every face with the numbers of its
vertices; the numbers of texture coordinates and normals are found for the faces that give one for
every corner. -/
theorem mesh_read_partial {K : Type} {S : Spelling K} {num : Text → Option K} {idx : Text → Option Int}
    (hS : S.OK num idx) (rs : List (ObjRecord K)) :
    readObj num idx (rs.map S.line) = .ok
      { V := vertexList rs, T := texcoordList rs, N := normalList rs
        Vi := (faceList rs).map (·.map Corner.v)
        Ti := (faceList rs).filterMap (·.mapM Corner.t)
        Ni := (faceList rs).filterMap (·.mapM Corner.n) } := by
  have w := hS.word
  have step : ∀ (d : ObjData K) (r : ObjRecord K), objLine num idx d (S.line r) = .ok
      { V := d.V ++ vertexList [r], T := d.T ++ texcoordList [r], N := d.N ++ normalList [r]
        Vi := d.Vi ++ (faceList [r]).map (·.map Corner.v)
        Ti := d.Ti ++ (faceList [r]).filterMap (·.mapM Corner.t)
        Ni := d.Ni ++ (faceList [r]).filterMap (·.mapM Corner.n) } := by
    intro d r
    cases r with
    | vertex x y z =>
      have hl := words_line (ws := [['v'], S.num x, S.num y, S.num z]) (by simp) (by
        intro t ht
        simp only [List.mem_cons, List.not_mem_nil, or_false] at ht
        rcases ht with rfl | rfl | rfl | rfl
        · exact ⟨by decide, by decide⟩
        all_goals exact w _)
      unfold objLine Spelling.line
      rw [if_neg (by simp [joinText]), hl]
      simp [hS.read, vertexList, texcoordList, normalList, faceList]
    | texcoord x y =>
      have hl := words_line (ws := [['v', 't'], S.num x, S.num y]) (by simp) (by
        intro t ht
        simp only [List.mem_cons, List.not_mem_nil, or_false] at ht
        rcases ht with rfl | rfl | rfl
        · exact ⟨by decide, by decide⟩
        all_goals exact w _)
      unfold objLine Spelling.line
      rw [if_neg (by simp [joinText]), hl]
      simp [hS.read, vertexList, texcoordList, normalList, faceList]
    | normal x y z =>
      have hl := words_line (ws := [['v', 'n'], S.num x, S.num y, S.num z]) (by simp) (by
        intro t ht
        simp only [List.mem_cons, List.not_mem_nil, or_false] at ht
        rcases ht with rfl | rfl | rfl | rfl
        · exact ⟨by decide, by decide⟩
        all_goals exact w _)
      unfold objLine Spelling.line
      rw [if_neg (by simp [joinText]), hl]
      simp [hS.read, vertexList, texcoordList, normalList, faceList]
    | face cs =>
      have hl := words_line (ws := ['f'] :: cs.map S.corner) (by simp) (by
        intro t ht
        rcases List.mem_cons.1 ht with rfl | ht
        · exact ⟨by decide, by decide⟩
        · obtain ⟨c, _, rfl⟩ := List.mem_map.1 ht
          exact corner_word hS c)
      unfold objLine Spelling.line
      rw [if_neg (by cases cs <;> simp [joinText]), hl]
      have h0 : (cs.map S.corner).mapM (facePart idx 0) = some (cs.map Corner.v) := by
        rw [mapM_corners _ (fun c => some c.v) (fun c => (corner_parts hS c).1), mapM_total]
      have h1 := mapM_corners (S := S) (facePart idx 1) Corner.t (fun c => (corner_parts hS c).2.1) cs
      have h2 := mapM_corners (S := S) (facePart idx 2) Corner.n (fun c => (corner_parts hS c).2.2) cs
      simp only [h0, h1, h2]
      simp [vertexList, texcoordList, normalList, faceList]
      refine ⟨?_, ?_⟩
      · rw [List.filterMap_cons, List.filterMap_nil]
        cases cs.mapM Corner.t <;> rfl
      · rw [List.filterMap_cons, List.filterMap_nil]
        cases cs.mapM Corner.n <;> rfl
    | comment t =>
      unfold objLine Spelling.line
      rw [if_pos (by simp)]
      simp [vertexList, texcoordList, normalList, faceList]
    | blank =>
      have : words ['\n'] = [] := by decide
      unfold objLine Spelling.line
      rw [if_neg (by simp), this]
      simp [vertexList, texcoordList, normalList, faceList]
  have all : ∀ (rs : List (ObjRecord K)) (d : ObjData K),
      (rs.map S.line).foldlM (objLine num idx) d = .ok
      { V := d.V ++ vertexList rs, T := d.T ++ texcoordList rs, N := d.N ++ normalList rs
        Vi := d.Vi ++ (faceList rs).map (·.map Corner.v)
        Ti := d.Ti ++ (faceList rs).filterMap (·.mapM Corner.t)
        Ni := d.Ni ++ (faceList rs).filterMap (·.mapM Corner.n) } := by
    intro rs
    induction rs with
    | nil => intro d; simp [vertexList, texcoordList, normalList, faceList]; rfl
    | cons r rs ih =>
      intro d
      rw [List.map_cons, List.foldlM_cons, step d r]
      have e1 : vertexList (r :: rs) = vertexList [r] ++ vertexList rs := by
        unfold vertexList; rw [← List.filterMap_append]; rfl
      have e2 : texcoordList (r :: rs) = texcoordList [r] ++ texcoordList rs := by
        unfold texcoordList; rw [← List.filterMap_append]; rfl
      have e3 : normalList (r :: rs) = normalList [r] ++ normalList rs := by
        unfold normalList; rw [← List.filterMap_append]; rfl
      have e4 : faceList (r :: rs) = faceList [r] ++ faceList rs := by
        unfold faceList; rw [← List.filterMap_append]; rfl
      refine (ih _).trans ?_
      simp only [e1, e2, e3, e4, List.map_append, List.filterMap_append, List.append_assoc]
  have := all rs {}
  simpa [readObj] using this

/-- C74 is false: no file can be read. Reading a mesh raises an exception whatever the file holds
(`fit` uses the name `Vmin`, which does not exist). -/
theorem mesh_fails {K : Type} (num : Text → Option K) (idx : Text → Option Int) (lines : List Text) :
    glmMesh num idx lines = .error .nameError ∨ glmMesh num idx lines = .error .valueError := by
  unfold glmMesh
  cases h : readObj num idx lines with
  | error e =>
    right
    have key : ∀ (lines : List Text) (d : ObjData K) (e : Err),
        lines.foldlM (objLine num idx) d = .error e → e = .valueError := by
      intro lines
      induction lines with
      | nil => intro d e h; cases h
      | cons l lines ih =>
        intro d e h
        rw [List.foldlM_cons] at h
        cases hl : objLine num idx d l with
        | ok d' => rw [hl] at h; exact ih d' e h
        | error e' =>
          rw [hl] at h
          have : e' = e := by injection h
          subst this
          unfold objLine at hl
          repeat' (split at hl)
          all_goals first
            | (injection hl with hl; exact hl.symm)
            | cases hl
    dsimp only
    rw [key lines {} e h]
  | ok d =>
    dsimp only
    by_cases hs : sameLengths d.V
    · rw [if_pos hs]
      unfold glmFit
      by_cases hv : d.V = []
      · rw [if_pos hv]; exact Or.inr rfl
      · rw [if_neg hv]; exact Or.inl rfl
    · rw [if_neg hs]; exact Or.inr rfl

/-- C74. In particular no file that is well-formed and has a vertex can be read. -/
theorem mesh_good_fails {K : Type} {S : Spelling K} {num : Text → Option K} {idx : Text → Option Int}
    (hS : S.OK num idx) (rs : List (ObjRecord K)) (hv : vertexList rs ≠ []) :
    glmMesh num idx (rs.map S.line) = .error .nameError := by
  unfold glmMesh
  rw [mesh_read_partial hS rs]
  dsimp only
  rw [if_pos ?_]
  · unfold glmFit; rw [if_neg hv]
  · have : ∀ r ∈ vertexList rs, r.length = 3 := by
      intro r hr
      unfold vertexList at hr
      obtain ⟨a, _, ha⟩ := List.mem_filterMap.1 hr
      split at ha
      · cases ha; rfl
      · cases ha
    intro r hr s hs
    rw [this r hr, this s hs]

/-- C74. `fit`, `center` and `camera` raise for all arguments. -/
theorem fit_center_camera_fails {K : Type} (V : List (List K)) (x y zoom : ℝ) (mode : String) :
    (∀ W, glmFit V ≠ .ok W) ∧ (∀ W, glmCenter V ≠ .ok W) ∧ glmCamera x y zoom mode = .error .typeError := by
  refine ⟨?_, ?_, rfl⟩
  · intro W; unfold glmFit; split <;> simp
  · intro W; unfold glmCenter; split <;> simp

/-- A spelling of natural numbers, for examples. -/
def natSpelling : Spelling Nat where
  num := decimal
  int := fun n => match n with | .ofNat n => decimal n | .negSucc n => '-' :: decimal (n + 1)

example : readObj (fun t => (pyInt t).toOption) (fun t => (pyInt t).toOption.map Int.ofNat)
    ([ObjRecord.vertex 1 2 3, .blank, .face [⟨1, some 2, none⟩, ⟨3, some 4, some 5⟩],
      .comment [], .face [⟨1, none, some 7⟩]].map natSpelling.line) =
    .ok { V := [[1, 2, 3]], Vi := [[1, 3], [1]], Ti := [[2, 4]], Ni := [[7]] } := by decide +kernel

example : glmMesh (fun t => (pyInt t).toOption) (fun t => (pyInt t).toOption.map Int.ofNat)
    ["v 1 2 3\n".toList, "f 1/2 3/4\n".toList] = .error .nameError := by decide +kernel

/-! ### Clamping -/

/-- C75. Between two bounds in order, clamping gives a number between them, which is the number itself
if it was there already. -/
theorem clamp_between {K : Type} [LinearOrder K] {a b : K} (h : a ≤ b) (v : K) :
    a ≤ glmClamp a b v ∧ glmClamp a b v ≤ b ∧ (a ≤ v → v ≤ b → glmClamp a b v = v) ∧
    (v < a → glmClamp a b v = a) ∧ (b < v → glmClamp a b v = b) := by
  unfold glmClamp
  refine ⟨le_min (le_max_right _ _) h, min_le_right _ _, ?_, ?_, ?_⟩
  · intro h1 h2; rw [max_eq_left h1, min_eq_left h2]
  · intro h1; rw [max_eq_right h1.le, min_eq_left h]
  · intro h1; rw [max_eq_left (h.trans h1.le), min_eq_right h1.le]

example : glmClamp (0 : ℚ) 1 (1 / 2) = 1 / 2 ∧ glmClamp (0 : ℚ) 1 7 = 1 := by decide +kernel

/-- C75. Clamping keeps the order. -/
theorem clamp_mono {K : Type} [LinearOrder K] (a b : K) {v w : K} (h : v ≤ w) :
    glmClamp a b v ≤ glmClamp a b w := min_le_min_right _ (max_le_max_right _ h)

/-! ### Normalising -/

/-- C75. A normalised vector has the direction of the original, and its length misses 1 by at most
`eps / |v|`; the zero vector stays zero. -/
theorem normalize_length {eps : ℝ} (he : 0 ≤ eps) (v : V3) :
    (∃ c : ℝ, 0 ≤ c ∧ glmNormalize eps v = V3.smul c v) ∧
    (0 < v.norm → (glmNormalize eps v).norm ≤ 1 ∧ 1 - eps / v.norm ≤ (glmNormalize eps v).norm) ∧
    (v = ⟨0, 0, 0⟩ → glmNormalize eps v = ⟨0, 0, 0⟩) := by
  have hn : 0 ≤ v.norm := Real.sqrt_nonneg _
  have hc : (0 : ℝ) ≤ 1 / (eps + v.norm) := by positivity
  refine ⟨⟨_, hc, rfl⟩, ?_, ?_⟩
  · intro hp
    have hnorm : (glmNormalize eps v).norm = v.norm / (eps + v.norm) := by
      have hd : (glmNormalize eps v).dot (glmNormalize eps v) =
          (1 / (eps + v.norm)) ^ 2 * v.dot v := by
        unfold glmNormalize
        generalize 1 / (eps + v.norm) = c
        simp only [V3.smul, V3.dot]
        ring
      have : (glmNormalize eps v).norm = Real.sqrt ((1 / (eps + v.norm)) ^ 2 * v.dot v) := by
        rw [← hd]; rfl
      rw [this, Real.sqrt_mul (sq_nonneg _), Real.sqrt_sq hc]
      show 1 / (eps + v.norm) * v.norm = v.norm / (eps + v.norm)
      ring
    rw [hnorm]
    have hs : 0 < eps + v.norm := by linarith
    refine ⟨(div_le_one hs).2 (by linarith), ?_⟩
    rw [le_div_iff₀ hs]
    have : (1 - eps / v.norm) * (eps + v.norm) = v.norm - eps * (eps / v.norm) := by
      field_simp; ring
    rw [this]
    have : 0 ≤ eps * (eps / v.norm) := by positivity
    linarith
  · rintro rfl
    simp [glmNormalize, V3.smul]

example : (glmNormalize 0 ⟨3, 0, 4⟩).norm = 1 := by
  have h := normalize_length (le_refl 0) ⟨3, 0, 4⟩
  have h5 : V3.norm ⟨3, 0, 4⟩ = 5 := by
    unfold V3.norm V3.dot
    rw [show (3 : ℝ) * 3 + 0 * 0 + 4 * 4 = 5 ^ 2 by norm_num]
    exact Real.sqrt_sq (by norm_num)
  obtain ⟨h1, h2⟩ := h.2.1 (by rw [h5]; norm_num)
  rw [zero_div, sub_zero] at h2
  exact le_antisymm h1 h2

end Verif
