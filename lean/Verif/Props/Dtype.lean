import Verif.Lemmas.Dtype
/-! # C14: type descriptions survive their textual form -/

namespace Verif

/-- numpy knows the base types, names are distinct and not empty. -/
def DType.Valid (known : Text → Bool) : DType → Prop
  | .plain base _ => known base = true
  | .struct fs => fs ≠ [] ∧ (∀ f ∈ fs, known f.base = true ∧ f.name ≠ []) ∧
      (fs.map DField.name).Nodup

instance (known : Text → Bool) (d : DType) : Decidable (d.Valid known) := by
  unfold DType.Valid; cases d <;> exact inferInstance

/-- numpy's base strings hold no separator ("<f4", "|V8", "<M8[ns]", ...). -/
def PlainBases (known : Text → Bool) : Prop :=
  ∀ b, known b = true → ':' ∉ b ∧ ',' ∉ b

/-- The full claim of C14. -/
def DtypeRoundTrip (known : Text → Bool) : Prop :=
  ∀ d : DType, d.Valid known → strToDtype known (dtypeToStr d) = .ok d

/-- A numpy that only knows "<f4". -/
def knownF4 (b : Text) : Bool := b = ['<', 'f', '4']

theorem knownF4_plain : PlainBases knownF4 := by
  intro b hb
  have : b = ['<', 'f', '4'] := by simpa [knownF4] using hb
  subst this; decide

/-- C14 fails for shapes of several dimensions, which are flattened: `("<f4", (2, 3))`. -/
theorem dtype_round_trip_fails : ¬ DtypeRoundTrip knownF4 := by
  intro h
  have := h (.plain ['<', 'f', '4'] [2, 3]) (by decide)
  revert this; decide

/-- It also fails for field names that hold a separator: the text cannot be read. -/
theorem dtype_round_trip_fails_names :
    strToDtype knownF4 (dtypeToStr (.struct [⟨['a', ':', 'b'], ['<', 'f', '4'], []⟩])) =
      .error .valueError := by decide

/-- A structure without fields comes back as a type without structure. -/
theorem dtype_empty_struct (known : Text → Bool) (h : known ['|', 'V', '0'] = true) :
    strToDtype known (dtypeToStr (.struct [])) = .ok (.plain ['|', 'V', '0'] []) := by
  have : (splitChars ',' (dtypeToStr (.struct []))).mapM parseElement =
      .ok [.bare ['|', 'V', '0'] []] := by decide
  unfold strToDtype
  rw [this]
  simp [makeDtype, h]

/-- Shape after the round trip: `()` and `(n,)` with `n ≥ 2` are kept. -/
def GoodShape : List Nat → Prop
  | [] => True
  | [n] => 2 ≤ n
  | _ => False

/-- Field names without separators. -/
def GoodName (name : Text) : Prop := ':' ∉ name ∧ ',' ∉ name

def DType.Good : DType → Prop
  | .plain _ shape => GoodShape shape
  | .struct fs => ∀ f ∈ fs, GoodShape f.shape ∧ GoodName f.name

theorem kept_of_good {s : List Nat} (h : GoodShape s) : keptShape s = s := by
  match s, h with
  | [], _ => rfl
  | [n], h =>
    have : 1 < n := h
    simp [keptShape, prodShape, this]

/-- What the textual form keeps of a dtype, whatever its shapes: each shape becomes its
number of elements. Any number of fields. -/
theorem dtype_text_keeps (known : Text → Bool) (hpl : PlainBases known) (d : DType)
    (hv : d.Valid known)
    (hn : ∀ fs, d = .struct fs → ∀ f ∈ fs, GoodName f.name) :
    strToDtype known (dtypeToStr d) = .ok (match d with
      | .plain base shape => .plain base (keptShape shape)
      | .struct fs => .struct (fs.map (fun f => { f with shape := keptShape f.shape }))) := by
  cases d with
  | plain base shape =>
    have hb := hpl base hv
    have hb' : known base = true := hv
    unfold strToDtype dtypeToStr
    rw [splitChars_of_not_mem (comma_elementText (by simp) hb.2)]
    simp [List.mapM_cons, parseElement_text (name := []) (by simp) hb.1, bind, Except.bind,
      pure, Except.pure, makeDtype, hb']
  | struct fs =>
    obtain ⟨hne, hf, hnd⟩ := hv
    have hn := hn fs rfl
    obtain ⟨f0, fs', rfl⟩ : ∃ f0 fs', fs = f0 :: fs' := by
      cases fs with
      | nil => exact absurd rfl hne
      | cons a b => exact ⟨a, b, rfl⟩
    generalize hfs : f0 :: fs' = fs at *
    have hd : dtypeToStr (.struct fs) =
        joinText ',' (fs.map (fun f => elementText f.name f.base f.shape)) := by
      rw [← hfs]; rfl
    have hsp : splitChars ',' (dtypeToStr (.struct fs)) =
        fs.map (fun f => elementText f.name f.base f.shape) := by
      rw [hd]
      apply splitChars_join
      · simpa using hne
      · intro a ha
        obtain ⟨f, hfm, rfl⟩ := List.mem_map.1 ha
        exact comma_elementText (hn f hfm).2 (hpl _ (hf f hfm).1).2
    unfold strToDtype
    rw [hsp]
    have hm : (fs.map (fun f => elementText f.name f.base f.shape)).mapM parseElement =
        .ok ((fs.map (fun f => { f with shape := keptShape f.shape })).map DElem.named) := by
      have h1 : ∀ fs : List DField,
          (∀ f ∈ fs, (known f.base = true ∧ f.name ≠ []) ∧ GoodName f.name) →
          (fs.map (fun f => elementText f.name f.base f.shape)).mapM parseElement =
          .ok ((fs.map (fun f => { f with shape := keptShape f.shape })).map DElem.named) := by
        intro fs
        induction fs with
        | nil => intro _; rfl
        | cons f fs ih =>
          intro h
          have hf := h f (by simp)
          have hi := ih (fun x hx => h x (by simp [hx]))
          simp only [List.map_cons, List.mapM_cons,
            parseElement_text (shape := f.shape) hf.2.1 (hpl _ hf.1.1).1, hi, bind, Except.bind,
            pure, Except.pure, if_pos hf.1.2]
      exact h1 fs (fun f h => ⟨hf f h, hn f h⟩)
    rw [hm]
    dsimp only
    have hmk : ∀ gs : List DField, (∀ g ∈ gs, known g.base = true) →
        (gs.map DField.name).Nodup → makeDtype known (gs.map DElem.named) = .ok (.struct gs) := by
      intro gs h1 h2
      have hall : (gs.all fun f => known f.base) = true := List.all_eq_true.2 h1
      have hnf := namedFields_map gs
      unfold makeDtype
      split
      · rename_i b s hh
        cases gs with
        | nil => simp at hh
        | cons g gs => simp at hh
      · rw [hnf]
        simp [hall, h2]
    apply hmk
    · intro g hg
      obtain ⟨f, hfm, rfl⟩ := List.mem_map.1 hg
      exact (hf f hfm).1
    · rw [List.map_map]
      exact hnd

/-- C14 (part). The round trip is exact for scalar and one-dimensional fields, any number
of them. Missing: the shapes `(0,)`, `(1,)` and those of several dimensions, and names that
hold a separator, for which the claim is false. -/
theorem dtype_round_trip_partial (known : Text → Bool) (hpl : PlainBases known) (d : DType)
    (hv : d.Valid known) (hg : d.Good) : strToDtype known (dtypeToStr d) = .ok d := by
  rw [dtype_text_keeps known hpl d hv]
  · cases d with
    | plain base shape => simp only [kept_of_good (show GoodShape shape from hg)]
    | struct fs =>
      simp only [Except.ok.injEq, DType.struct.injEq]
      conv => rhs; rw [← List.map_id fs]
      apply List.map_congr_left
      intro f hf
      simp [kept_of_good (hg f hf).1]
  · intro fs h f hf
    subst h
    exact (hg f hf).2

example : (DType.struct [⟨['x'], ['<', 'f', '4'], [3]⟩, ⟨['y'], ['<', 'f', '4'], []⟩]).Valid
    knownF4 ∧ (DType.struct [⟨['x'], ['<', 'f', '4'], [3]⟩, ⟨['y'], ['<', 'f', '4'], []⟩]).Good := by
  refine ⟨by decide, ?_⟩
  intro f hf
  simp only [List.mem_cons, List.not_mem_nil, or_false] at hf
  rcases hf with rfl | rfl
  · exact ⟨show 2 ≤ 3 by decide, by unfold GoodName; decide⟩
  · exact ⟨trivial, by unfold GoodName; decide⟩

/-- The number of base elements that a value of the type holds. -/
def DType.count : DType → Nat
  | .plain _ shape => shape.prod
  | .struct fs => (fs.map (fun f => f.shape.prod)).sum

/-- No axis of length 0. -/
def DType.NoEmptyAxis : DType → Prop
  | .plain _ shape => 0 ∉ shape
  | .struct fs => ∀ f ∈ fs, 0 ∉ f.shape

theorem prod_keptShape {shape : List Nat} (h : 0 ∉ shape) :
    (keptShape shape).prod = shape.prod := by
  have hp : prodShape shape = shape.prod := by
    unfold prodShape
    rw [List.prod_eq_foldr]
  have hne : shape.prod ≠ 0 := by
    clear hp
    induction shape with
    | nil => decide
    | cons a l ih =>
      simp only [List.mem_cons, not_or] at h
      rw [List.prod_cons]
      exact Nat.mul_ne_zero (fun h0 => h.1 h0.symm) (ih h.2)
  unfold keptShape
  rw [hp]
  split
  · simp
  · simp only [List.prod_nil]
    omega

/-- C14. Whatever the shapes, the type read back from the text holds as many elements, and
the same base types under the same names in the same order. -/
theorem dtype_text_keeps_count (known : Text → Bool) (hpl : PlainBases known) (d : DType)
    (hv : d.Valid known) (hz : d.NoEmptyAxis)
    (hn : ∀ fs, d = .struct fs → ∀ f ∈ fs, GoodName f.name) :
    ∃ d', strToDtype known (dtypeToStr d) = .ok d' ∧ d'.count = d.count ∧
      match d, d' with
      | .plain b _, .plain b' _ => b' = b
      | .struct fs, .struct fs' => fs'.map (fun f => (f.name, f.base, f.shape.prod)) =
          fs.map (fun f => (f.name, f.base, f.shape.prod))
      | _, _ => False := by
  refine ⟨_, dtype_text_keeps known hpl d hv hn, ?_⟩
  cases d with
  | plain b s => exact ⟨prod_keptShape hz, rfl⟩
  | struct fs =>
    constructor
    · simp only [DType.count, List.map_map]
      congr 1
      apply List.map_congr_left
      intro f hf
      exact prod_keptShape (hz f hf)
    · simp only [List.map_map]
      apply List.map_congr_left
      intro f hf
      simp [prod_keptShape (hz f hf)]

theorem namedFields_some : ∀ {l : List DElem} {fs : List DField}, namedFields l = some fs →
    l = fs.map DElem.named
  | [], fs, h => by cases h; rfl
  | .named f :: l, fs, h => by
    simp only [namedFields, Option.map_eq_some_iff] at h
    obtain ⟨fs', h1, rfl⟩ := h
    rw [namedFields_some h1]; rfl
  | .bare _ _ :: _, fs, h => by simp [namedFields] at h

theorem parseElement_named {e : Text} {f : DField} (h : parseElement e = .ok (.named f)) :
    f.name ≠ [] := by
  unfold parseElement at h
  split at h
  · split at h
    · cases h
    · rename_i name _ _ _ _ _
      by_cases hn : name ≠ []
      · rw [if_pos hn] at h
        cases h
        exact hn
      · rw [if_neg hn] at h
        cases h
  · cases h

theorem mapM_parse_mem {es : List Text} {l : List DElem} (h : es.mapM parseElement = .ok l) :
    l.length = es.length ∧ ∀ x ∈ l, ∃ e ∈ es, parseElement e = .ok x := by
  induction es generalizing l with
  | nil => cases h; simp
  | cons e es ih =>
    simp only [List.mapM_cons, bind, Except.bind] at h
    cases h1 : parseElement e with
    | error err => simp [h1] at h
    | ok x =>
      simp only [h1] at h
      cases h2 : es.mapM parseElement with
      | error err => simp [h2] at h
      | ok l' =>
        simp only [h2, pure, Except.pure, Except.ok.injEq] at h
        subst h
        obtain ⟨g1, g2⟩ := ih h2
        refine ⟨by simp [g1], ?_⟩
        intro y hy
        rcases List.mem_cons.1 hy with rfl | hy
        · exact ⟨e, by simp, h1⟩
        · obtain ⟨e', he', hp⟩ := g2 y hy
          exact ⟨e', by simp [he'], hp⟩

/-- C14. Any text at all: what is accepted is a type that numpy accepts, with known base
types and distinct names that are not empty; anything else raises. -/
theorem dtype_read_valid (known : Text → Bool) (s : Text) (d : DType)
    (h : strToDtype known s = .ok d) : d.Valid known := by
  unfold strToDtype at h
  split at h
  · cases h
  · rename_i l hl
    obtain ⟨hlen, hmem⟩ := mapM_parse_mem hl
    have hne : l ≠ [] := by
      intro h0
      rw [h0] at hlen
      exact splitChars_ne_nil ',' s (List.length_eq_zero_iff.1 hlen.symm)
    unfold makeDtype at h
    split at h
    · split at h
      · cases h; assumption
      · cases h
    · split at h
      · cases h
      · rename_i fs hfs
        have hlf := namedFields_some hfs
        split at h
        · cases h
        · rename_i hall
          split at h
          · cases h
          · rename_i hnd
            cases h
            have hall := Decidable.not_not.1 hall
            have hnd := Decidable.not_not.1 hnd
            refine ⟨?_, ?_, hnd⟩
            · rintro rfl
              exact hne hlf
            · intro f hf
              refine ⟨List.all_eq_true.1 hall f hf, ?_⟩
              obtain ⟨e, _, hp⟩ := hmem (.named f) (by rw [hlf]; exact List.mem_map_of_mem hf)
              exact parseElement_named hp

example : strToDtype knownF4 "<f4:x:3,<f4:y:1".toList =
    .ok (.struct [⟨['x'], ['<', 'f', '4'], [3]⟩, ⟨['y'], ['<', 'f', '4'], []⟩]) ∧
    strToDtype knownF4 "<f4:x:3,<f4:x:1".toList = .error .valueError := by decide

end Verif
