import Verif.Lemmas.Convert
/-! # C16: one converter per pair of types -/

namespace Verif

/-- C16. After any history of registrations and removals, the table agrees with the finite
map. -/
theorem converter_table_is_map (ops : List ConvOp) (k : String × String) :
    dget (convRun ops) k = ConvMap.run ops k := by
  have : ∀ (ops : List ConvOp) (cs : ConvTable) (m : ConvMap), (∀ k, dget cs k = m k) →
      ∀ k, dget (ops.foldl (fun cs op => (convStep cs op).1) cs) k =
        ops.foldl ConvMap.step m k := by
    intro ops
    induction ops with
    | nil => intro cs m h; exact h
    | cons op ops ih =>
      intro cs m h
      simp only [List.foldl_cons]
      apply ih
      cases op with
      | register srcs dst f => exact registerLoop_get srcs dst f cs m h
      | unregister srcs dst =>
        intro k
        show dget (unregisterLoop cs srcs dst) k = _
        rw [unregisterLoop_get]
        simp only [ConvMap.step, ConvMap.unregister, h k]
  exact this ops [] _ (fun _ => rfl) k

/-- C16. A pair never has two entries. -/
theorem converter_table_nodup (ops : List ConvOp) : (dkeys (convRun ops)).Nodup := by
  have hreg : ∀ (ss : List String) (dst : String) (f : Nat) (cs : ConvTable),
      (dkeys cs).Nodup → (dkeys (registerLoop cs ss dst f).1).Nodup := by
    intro ss dst f
    induction ss with
    | nil => intro cs h; exact h
    | cons s ss ih =>
      intro cs h
      unfold registerLoop
      split
      · exact h
      · exact ih _ (nodup_dkeys_dset _ _ _ h)
  have hun : ∀ (ss : List String) (dst : String) (cs : ConvTable),
      (dkeys cs).Nodup → (dkeys (unregisterLoop cs ss dst)).Nodup := by
    intro ss dst
    induction ss with
    | nil => intro cs h; exact h
    | cons s ss ih =>
      intro cs h
      apply ih
      dsimp only
      split
      · exact nodup_dkeys_ddel _ _ h
      · exact h
  have : ∀ (ops : List ConvOp) (cs : ConvTable), (dkeys cs).Nodup →
      (dkeys (ops.foldl (fun cs op => (convStep cs op).1) cs)).Nodup := by
    intro ops
    induction ops with
    | nil => intro cs h; exact h
    | cons op ops ih =>
      intro cs h
      apply ih
      cases op with
      | register srcs dst f => exact hreg srcs dst f cs h
      | unregister srcs dst => exact hun srcs dst cs h
  exact this ops [] (by simp [dkeys])

/-- C16. Registering one pair: raises exactly when the pair is taken, and then changes
nothing. -/
theorem register_taken_pair (cs : ConvTable) (s dst : String) (f : Nat) :
    (registerLoop cs [s] dst f).2 = (if dhas cs (s, dst) then .error .typeError else .ok ()) ∧
    (dhas cs (s, dst) = true → (registerLoop cs [s] dst f).1 = cs) := by
  unfold registerLoop
  cases h : dhas cs (s, dst) <;> simp [registerLoop]

/-- The claim of C16 for a tuple of source types: a registration that raises changes
nothing. -/
def RegisterAtomic : Prop :=
  ∀ cs ss dst f e, (registerLoop cs ss dst f).2 = .error e → (registerLoop cs ss dst f).1 = cs

/-- It fails: the source types before the taken one stay registered. -/
theorem register_atomic_fails : ¬ RegisterAtomic := by
  intro h
  have := h [(("b", "D"), 0)] ["a", "b"] "D" 1 .typeError (by decide)
  revert this; decide

/-- C16. Looking up a pair gives the exact converter, or else the wildcard one, or else
nothing. -/
theorem lookup_exact_or_wildcard (ops : List ConvOp) (src dst : String) :
    isRegistered (convRun ops) src dst =
      match ConvMap.run ops (src, dst) with
      | some f => some f
      | none => ConvMap.run ops ("*", dst) := by
  unfold isRegistered
  rw [converter_table_is_map, converter_table_is_map]
  cases ConvMap.run ops (src, dst) <;> rfl

/-- C16. Looking up a value that is no string: its own class first, then its direct bases
in order; a converter is found exactly when there is one for one of them. -/
theorem lookup_value (cs : ConvTable) (c : String) (bs : List String) (dst : String) :
    ((isRegistered cs c dst).isSome = true →
      getConverter cs (.value c bs) dst = isRegistered cs c dst) ∧
    (getConverter cs (.value c bs) dst = none ↔
      ∀ b ∈ c :: bs, isRegistered cs b dst = none) := by
  unfold getConverter Src.typeName Src.bases
  constructor
  · intro h
    obtain ⟨f, hf⟩ := Option.isSome_iff_exists.1 h
    simp [hf]
  · cases h : isRegistered cs c dst with
    | some f => simp [h]
    | none => simp [h, List.findSome?_eq_none_iff]

theorem isRegistered_serves (ops : List ConvOp) (src dst : String) :
    isRegistered (convRun ops) src dst = (ConvMap.run ops).serves src dst :=
  lookup_exact_or_wildcard ops src dst

/-- C16. Looking up a type, a string or any other value after any history: the converter of
the first of the types it is taken for that has one, and nothing if none has. -/
theorem lookup_order (ops : List ConvOp) (v : Src) (dst : String) :
    (∀ f, getConverter (convRun ops) v dst = some f ↔
      (ConvMap.run ops).First ((ConvMap.run ops).takenFor dst v) dst f) ∧
    (getConverter (convRun ops) v dst = none ↔
      ∀ t ∈ (ConvMap.run ops).takenFor dst v, (ConvMap.run ops).serves t dst = none) := by
  have hfold : getConverter (convRun ops) v dst =
      ((ConvMap.run ops).takenFor dst v).findSome?
        (fun t => (ConvMap.run ops).serves t dst) := by
    unfold getConverter
    simp only [isRegistered_serves]
    have hcons : ∀ t bs, (match (ConvMap.run ops).serves t dst with
        | some f => some f
        | none => List.findSome? (fun b => (ConvMap.run ops).serves b dst) bs) =
        (t :: bs).findSome? (fun t => (ConvMap.run ops).serves t dst) := by
      intro t bs
      cases h : (ConvMap.run ops).serves t dst <;> simp [List.findSome?_cons, h]
    refine (hcons _ _).trans ?_
    cases v with
    | type n => rfl
    | value c bs => rfl
    | text s =>
      simp only [Src.typeName, Src.bases, ConvMap.takenFor, isRegistered_serves]
      cases h : (ConvMap.run ops).serves s dst <;> simp
  rw [hfold]
  constructor
  · intro f
    rw [List.findSome?_eq_some_iff]
    unfold ConvMap.First
    constructor
    · rintro ⟨pre, c, post, h1, h2, h3⟩
      exact ⟨pre, c, post, h1, h3, h2⟩
    · rintro ⟨pre, c, post, h1, h2, h3⟩
      exact ⟨pre, c, post, h1, h3, h2⟩
  · rw [List.findSome?_eq_none_iff]

/-- C16. `convert` returns what the converter found returns, and raises `ValueError` when
there is none or when it raises. -/
theorem convert_outcome (run : Nat → Except Err Val) (cs : ConvTable) (v : Src) (dst : String) :
    (∀ r, convertValue run cs v dst = .ok r ↔
      ∃ f, getConverter cs v dst = some f ∧ run f = .ok r) ∧
    (∀ e, convertValue run cs v dst = .error e → e = .valueError) := by
  unfold convertValue
  cases h : getConverter cs v dst with
  | none => simp [eq_comm]
  | some f => cases hr : run f <;> simp [hr, eq_comm]

/-- A class whose second base has a converter; the string "int" stands for the type. -/
example : getConverter [(("B", "D"), 2), (("C", "D"), 4), (("int", "D"), 5)]
      (.value "A" ["X", "B", "C"]) "D" = some 2 ∧
    getConverter [(("B", "D"), 2), (("C", "D"), 4), (("int", "D"), 5)] (.text "int") "D" =
      some 5 := by decide
example : convRun [.register ["list", "tuple"] "Color" 1, .register ["*"] "str" 2,
    .unregister ["tuple", "int"] "Color", .register ["list"] "Color" 3] =
    [(("list", "Color"), 1), (("*", "str"), 2)] := by decide
example : getConverter [(("*", "str"), 2), (("int", "str"), 4)] (.value "OID" ["int"]) "str" =
    some 2 := by decide

end Verif
