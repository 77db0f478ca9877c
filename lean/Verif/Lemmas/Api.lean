import Verif.Spec.Api
import Verif.Lemmas.Accepted
/-! Facts about the tables of the two programs. -/

namespace Verif

instance (sg : Sig) : Decidable sg.WF :=
  decidable_of_iff (sg.params.Nodup ∧ (∀ k ∈ sg.params, endsWithId k = false) ∧ "id" ∉ sg.params ∧
    (dkeys sg.defaults).Nodup ∧ (∀ k ∈ dkeys sg.defaults, k ∈ sg.params) ∧
    (∀ k ∈ dkeys sg.annots, k ∈ sg.params ∨ k = "return"))
    ⟨fun ⟨a, b, c, d, e, f⟩ => ⟨a, b, c, d, e, f⟩, fun ⟨a, b, c, d, e, f⟩ => ⟨a, b, c, d, e, f⟩⟩

theorem findRow_mem {rows : List Row} {c f r} (h : findRow rows c f = some r) : r ∈ rows :=
  List.mem_of_find?_eq_some h

theorem rows_wf (rows : List Row)
    (h : ∀ r ∈ rows, r.sig.WF ∧ ∀ p ∈ r.sig.defaults, p.2.isObj = false) (cls f : String)
    (sg : Sig) (hs : (findRow rows cls f).map Row.sig = some sg) :
    sg.WF ∧ ∀ p ∈ sg.defaults, p.2.isObj = false := by
  cases hr : findRow rows cls f with
  | none => rw [hr] at hs; cases hs
  | some r => rw [hr] at hs; cases hs; exact h r (findRow_mem hr)

theorem gspProg_wf (A : ArrayInfo) : (gspProg A).SigsWF := fun cls f sg hs =>
  rows_wf gspRows (by decide +kernel) cls f sg hs

theorem mplProg_wf (A : ArrayInfo) (on draw) : (mplProg A on draw).SigsWF := fun cls f sg hs =>
  rows_wf mplRows (by decide +kernel) cls f sg hs

/-- What the tables say about a portable function. -/
structure PortableRow (p : String × String) (r r2 : Row) : Prop where
  here : findRow gspRows p.1 p.2 = some r
  there : findRow mplRows p.1 p.2 = some r2
  params : r2.sig.params = r.sig.params
  positions : "positions" ∈ r.sig.params → dget r.sig.annots "positions" = some ["Transform", "Buffer"] ∧
    dget r.sig.defaults "positions" = none
  indices : "indices" ∈ r.sig.params →
    dget r.sig.annots "indices" = some ["Transform", "Buffer", "List", "int"] ∧
    dget r.sig.defaults "indices" = none
  defaults : ∀ q ∈ r.sig.defaults, q.2 = .none
  name : p.2 ≠ "__init__" → (jsonNames (p.1, r.name.getD p.2)).2 = p.2 ∧ hasChar '.' p.2 = false
  path : p.2 = "__init__" → (jsonNames (p.1, r.name.getD "__init__")).2 = "__init__" ∧
    dget mplPaths (jsonNames (p.1, r.name.getD "__init__")).1 = some p.1
  ok : NameOK p.1 (r.name.getD p.2)
  runs : p ≠ ("Viewport", "render") ∧ p.1 ≠ "Measure"

instance (p : String × String) (r r2 : Row) : Decidable (PortableRow p r r2) :=
  decidable_of_iff (findRow gspRows p.1 p.2 = some r ∧ findRow mplRows p.1 p.2 = some r2 ∧
      r2.sig.params = r.sig.params ∧
      ("positions" ∈ r.sig.params → dget r.sig.annots "positions" = some ["Transform", "Buffer"] ∧
        dget r.sig.defaults "positions" = none) ∧
      ("indices" ∈ r.sig.params →
        dget r.sig.annots "indices" = some ["Transform", "Buffer", "List", "int"] ∧
        dget r.sig.defaults "indices" = none) ∧
      (∀ q ∈ r.sig.defaults, q.2 = .none) ∧
      (p.2 ≠ "__init__" → (jsonNames (p.1, r.name.getD p.2)).2 = p.2 ∧ hasChar '.' p.2 = false) ∧
      (p.2 = "__init__" → (jsonNames (p.1, r.name.getD "__init__")).2 = "__init__" ∧
        dget mplPaths (jsonNames (p.1, r.name.getD "__init__")).1 = some p.1) ∧
      NameOK p.1 (r.name.getD p.2) ∧ (p ≠ ("Viewport", "render") ∧ p.1 ≠ "Measure"))
    ⟨fun ⟨h1, h2, h3, h4, h5, h6, h7, h8, h9, h10⟩ => ⟨h1, h2, h3, h4, h5, h6, h7, h8, h9, h10⟩,
     fun ⟨h1, h2, h3, h4, h5, h6, h7, h8, h9, h10⟩ => ⟨h1, h2, h3, h4, h5, h6, h7, h8, h9, h10⟩⟩

theorem portable_row {p : String × String} (h : p ∈ portable) :
    ∃ r r2, PortableRow p r r2 := by
  have key : ∀ p ∈ portable, (findRow gspRows p.1 p.2).any (fun r =>
      (findRow mplRows p.1 p.2).any (fun r2 => decide (PortableRow p r r2))) = true := by
    decide +kernel
  have := key p h
  simp only [Option.any_eq_true, decide_eq_true_eq] at this
  obtain ⟨r, _, r2, _, h⟩ := this
  exact ⟨r, r2, h⟩

/-- The recorded form of a value, from its class alone. -/
theorem recordedAs_refused {P : Prog} {cs anns} {v : Val} {c : String} (hc : className v = c)
    (h : (candidates P cs c anns).getLast? = none ∧ anns.any (fits P c) = false) :
    recordedAs P cs anns v = none := by
  unfold recordedAs
  rw [hc, h.1]
  simp only [h.2]
  rfl

theorem recordedAs_plain {P : Prog} {cs anns} {v : Val} {c : String} (hc : className v = c)
    (h : (candidates P cs c anns).getLast? = none ∧ anns.any (fits P c) = true) :
    recordedAs P cs anns v = some v := by
  unfold recordedAs
  rw [hc, h.1]
  simp only [h.2]
  rfl

/-- The classes of things with a length that are no objects. -/
def lenClasses : List String :=
  ["str", "bytes", "list", "tuple", "ndarray", "tracked", "memoryview", "Color"]

theorem hasLen_class {v : Val} (hv : v.isObj = false) (hl : hasLen v = true) :
    className v ∈ lenClasses := by
  cases v with
  | inst c p =>
    simp only [hasLen, Bool.or_eq_true, decide_eq_true_eq] at hl
    rcases hl with ((rfl | rfl) | rfl) | rfl <;> (dsimp only [className]; decide)
  | obj x => cases hv
  | str s => show "str" ∈ _; decide
  | bytes b => show "bytes" ∈ _; decide
  | list l => show "list" ∈ _; decide
  | tuple l => show "tuple" ∈ _; decide
  | _ => cases hl

/-- A closed copy of the front end. -/
def gsp0 : Prog := gspProg { count := fun _ => 0, dtype := fun _ => 0, content := fun _ => 0 }

/-- The conversions that raise whatever they are given, build an object or look one up. -/
def sterile : List Nat := [0, 3, 4, 8, 9, 10, 12, 13, 16]

theorem sterile_unsavable {A : ArrayInfo} {ij : Codec} {f : Nat} (hf : f ∈ sterile) (v : Val) :
    ¬ Savable (gspProg A) ij (.conv f v) := by
  rintro ⟨y, hy, _⟩
  simp only [sterile, List.mem_cons, List.not_mem_nil, or_false] at hf
  have h12 : ∀ y, evaluated (gspProg A) (.conv 12 v) ≠ some y := by
    intro y h
    simp only [evaluated, gspProg, apiConv] at h
    split at h
    · rename_i heq
      split at heq <;> cases heq
    · cases h
    · cases h
  rcases hf with rfl | rfl | rfl | rfl | rfl | rfl | rfl | rfl | rfl <;> first
    | (cases hy; done)
    | exact h12 y hy

/-- A class whose values are refused, or recorded with a conversion that cannot be saved. -/
def losesClass (P : Prog) (cs : Dict (String × String) Nat) (l : List String) (c : String) : Bool :=
  match (candidates P cs c l).getLast? with
  | some f => sterile.contains f
  | none => !l.any (fits P c)

theorem lost_unsavable {A : ArrayInfo} {cs l} {ij : Codec} {v u : Val}
    (h : losesClass gsp0 cs l (className v) = true)
    (hu : recordedAs (gspProg A) cs l v = some u) : ¬ Savable (gspProg A) ij u := by
  unfold losesClass at h
  unfold recordedAs at hu
  rw [show candidates (gspProg A) cs (className v) l = candidates gsp0 cs (className v) l from rfl] at hu
  cases hc : (candidates gsp0 cs (className v) l).getLast? with
  | some f =>
    rw [hc] at h hu
    dsimp only at h hu
    cases hu
    exact sterile_unsavable (by simpa using h) v
  | none =>
    rw [hc] at h hu
    dsimp only at h hu
    rw [show l.any (fits (gspProg A) (className v)) = l.any (fits gsp0 (className v)) from rfl] at hu
    rw [Bool.not_eq_true'] at h
    rw [h] at hu
    cases hu

/-- The converters of a process with `gsp` alone, and with the backend too. -/
def converterTables : List (Dict (String × String) Nat) := [gspConverters, allConverters]

theorem refused_classes : ∀ c ∈ lenClasses, ∀ anns ∈ [["Transform", "Buffer"],
    ["Transform", "Buffer", "List", "int"]], ∀ cs ∈ converterTables,
    losesClass gsp0 cs anns c = true := by
  decide +kernel

theorem plain_classes : ∀ c ∈ ["int", "OID", "bool"] ++ enumClasses, ∀ cs ∈ converterTables,
    (candidates gsp0 cs c ["Transform", "Buffer", "List", "int"]).getLast? = none ∧
      ["Transform", "Buffer", "List", "int"].any (fits gsp0 c) = true := by
  decide +kernel

/-- What has a length and is no object cannot be saved as positions. -/
theorem positions_refused (A : ArrayInfo) {cs} (hcs : cs ∈ converterTables) {ij : Codec} {v u : Val}
    (hv : v.isObj = false) (hl : hasLen v = true)
    (hu : recordedAs (gspProg A) cs ["Transform", "Buffer"] v = some u) :
    ¬ Savable (gspProg A) ij u :=
  lost_unsavable (refused_classes _ (hasLen_class hv hl) _ (by simp) _ hcs) hu

/-- Integers are accepted as indices, and arrive as integers. -/
theorem indices_arrive (A : ArrayInfo) {cs} (hcs : cs ∈ converterTables) (text raw : Nat → String)
    {v u : Val} (hv : v.isObj = false) (hr : indicesRaise v = none)
    (hu : recordedAs (gspProg A) cs ["Transform", "Buffer", "List", "int"] v = some u)
    (hs : Savable (gspProg A) (apiCodec text raw) u) :
    indicesRaise (jsonVal (gspProg A) (apiCodec text raw) u) = none ∧
      ∀ f x, jsonVal (gspProg A) (apiCodec text raw) u ≠ .conv f x := by
  have hlen : ¬ hasLen v = true := fun hl =>
    lost_unsavable (refused_classes _ (hasLen_class hv hl) _ (by simp) _ hcs) hu hs
  have hno : intValue v ≠ none := by
    intro hn
    unfold indicesRaise at hr
    rw [hn] at hr
    dsimp only at hr
    rw [if_neg hlen] at hr
    cases hr
  have hplain : ∀ {v' : Val} {c : String}, className v' = c → c ∈ ["int", "OID", "bool"] ++ enumClasses →
      recordedAs (gspProg A) cs ["Transform", "Buffer", "List", "int"] v' = some v' := fun h hc =>
    recordedAs_plain h (plain_classes _ hc _ hcs)
  cases v with
  | int n =>
    rw [hplain (c := "int") rfl (by decide)] at hu; cases hu
    exact ⟨hr, by intro f x h; cases h⟩
  | oid n =>
    rw [hplain (c := "OID") rfl (by decide)] at hu; cases hu
    exact ⟨hr, by intro f x h; cases h⟩
  | bool b =>
    rw [hplain (c := "bool") rfl (by decide)] at hu; cases hu
    exact ⟨hr, by intro f x h; cases h⟩
  | inst c p =>
    have hc : c ∈ enumClasses := by
      by_contra h
      exact hno (by simp [intValue, h])
    have : apiCodec text raw c p = some (.int p) := by
      have hc' := hc
      simp only [enumClasses, List.mem_cons, List.not_mem_nil, or_false] at hc'
      rcases hc' with rfl | rfl | rfl | rfl | rfl | rfl <;> rfl
    rw [hplain (c := c) rfl (List.mem_append_right _ hc)] at hu; cases hu
    have hj : jsonVal (gspProg A) (apiCodec text raw) (.inst c p) = .int p := by
      simp [jsonVal, evaluated, loadedValue, this, decodeVal]
    rw [hj]
    refine ⟨?_, by intro f x h; cases h⟩
    unfold indicesRaise at hr ⊢
    rw [show intValue (.inst c p) = some (p : Int) by simp [intValue, hc]] at hr
    exact hr
  | _ => exact absurd rfl hno

/-! ### Sessions -/

/-- What arrives of a savable value is plain. -/
theorem savable_arrives {P P2 : Prog} {ij : Codec} {cs2 on anns u} (h : Savable P ij u)
    (hpass : Passes P2 cs2 on anns (jsonVal P ij u)) :
    Arrives P2 cs2 on anns (jsonVal P ij u) := by
  obtain ⟨y, hy, he⟩ := h
  have hdec : ∀ j, Passes P2 cs2 on anns (decodeVal j) → Arrives P2 cs2 on anns (decodeVal j) := by
    intro j; cases j <;> exact fun h => h
  rw [jsonVal, hy] at hpass ⊢
  dsimp only [Option.getD] at hpass ⊢
  cases y with
  | inst c p =>
    simp only [loadedValue] at hpass ⊢
    cases hj : ij c p with
    | none => simp [Encodable, hj] at he
    | some j => rw [hj] at hpass; exact hdec j hpass
  | obj x => cases he
  | conv f x => cases he
  | _ => exact hpass

/-! ### Recording backends -/

/-- The declared types of the parameters of `gsp` that hold values, with those of the backend
in their place. -/
def onTypes : List (List String × List String) :=
  [["int"], ["float"], ["str"], ["dtype"], ["memoryview", "bytes"], ["Transform", "float", "int"], ["Canvas"],
   ["Color"], ["Viewport"], ["Matrix"], itemTypes [], itemTypes ["Color"], itemTypes ["float"],
   itemTypes ["Marker"], itemTypes ["List", "int"], itemTypes ["LineCap"], itemTypes ["LineStyle"],
   itemTypes ["LineJoin"]].map (fun l => (l, l)) ++
  [(["memoryview"], ["memoryview", "bytes"]),
   (itemTypes ["Vec3"], itemTypes ["Vec3", "NoneType"])]

/-- What the tables say about these functions. -/
theorem portableOn_row {p : String × String} (h : p ∈ portableOn) {r r2 : Row}
    (hr : findRow gspRows p.1 p.2 = some r) (hr2 : findRow mplRows p.1 p.2 = some r2) :
    (∀ q ∈ r2.sig.defaults, q.2 = .none) ∧ ∀ q ∈ r2.sig.annots,
      ∃ l, dget r.sig.annots q.1 = some l ∧ (l, q.2) ∈ onTypes := by
  have key : ∀ p ∈ portableOn, (findRow gspRows p.1 p.2).all (fun r =>
      (findRow mplRows p.1 p.2).all (fun r2 => decide ((∀ q ∈ r2.sig.defaults, q.2 = .none) ∧
        ∀ q ∈ r2.sig.annots, (dget r.sig.annots q.1).any (fun l => decide ((l, q.2) ∈ onTypes)) = true))) = true := by
    decide +kernel
  have := key p h
  rw [hr, hr2] at this
  simp only [Option.all_some, decide_eq_true_eq, Option.any_eq_true] at this
  exact this

theorem portableOn_sub {p : String × String} (h : p ∈ portableOn) :
    p ∈ portable ∧ p.1 ≠ "List" := by
  have := List.mem_filter.1 h
  simpa using this

theorem registered_target {cs : Dict (String × String) Nat} {bs : List String} {ann : String}
    {f : Nat} (h : registeredFrom cs bs ann = some f) : ∃ b, ((b, ann), f) ∈ cs := by
  unfold registeredFrom at h
  obtain ⟨o, ho, h⟩ := List.exists_of_findSome?_eq_some h
  dsimp only [id] at h
  subst h
  obtain ⟨b, _, hb⟩ := List.mem_flatMap.1 ho
  simp only [List.mem_cons, List.not_mem_nil, or_false] at hb
  rcases hb with hb | hb
  · exact ⟨b, dget_mem hb.symm⟩
  · exact ⟨"*", dget_mem hb.symm⟩

theorem candidates_target {P : Prog} {cs : Dict (String × String) Nat} {c : String}
    {l : List String} {f : Nat} (h : f ∈ candidates P cs c l) :
    ∃ ann ∈ l, ∃ b, ((b, ann), f) ∈ cs := by
  unfold candidates at h
  obtain ⟨ann, ha, h⟩ := List.mem_flatMap.1 h
  obtain ⟨b, _, h⟩ := List.mem_filterMap.1 h
  exact ⟨ann, List.takeWhile_subset _ ha, registered_target h⟩

/-- A class of values is accepted. -/
def acceptsClass (P : Prog) (cs : Dict (String × String) Nat) (l : List String) (c : String) : Bool :=
  (candidates P cs c l).getLast?.isSome || l.any (fits P c)

theorem recordedAs_of_class {P : Prog} {cs l} {v : Val} {c : String} (hc : className v = c)
    (h : acceptsClass P cs l c = true) : recordedAs P cs l v ≠ none := by
  unfold recordedAs
  rw [hc]
  unfold acceptsClass at h
  cases hl : (candidates P cs c l).getLast? with
  | some f => simp
  | none =>
    rw [hl] at h
    simp only [Option.isSome_none, Bool.false_or] at h
    simp [h]

/-- The classes in which values of a class arrive. -/
def arriving : List (String × String) :=
  [("NoneType", "NoneType"), ("bool", "bool"), ("int", "int"), ("OID", "int"), ("float", "float"),
   ("str", "str"), ("bytes", "str"), ("list", "list"), ("tuple", "list"), ("memoryview", "str"),
   ("ndarray", "str"), ("tracked", "str"), ("Color", "list"), ("Vec2", "list"), ("Vec3", "list"),
   ("Marker", "int"), ("Shading", "int"), ("Render", "int")]

theorem fits_arriving {l l2 : List String} (hl : (l, l2) ∈ onTypes) {c c' : String}
    (hc : (c, c') ∈ arriving) (h : l.any (fits gsp0 c) = true) :
    acceptsClass gsp0 allConverters l2 c' = true := by
  have key : ∀ l ∈ onTypes, ∀ p ∈ arriving, l.1.any (fits gsp0 p.1) = true →
    acceptsClass gsp0 allConverters l.2 p.2 = true := by decide +kernel
  exact key (l, l2) hl (c, c') hc h

theorem converter_unfit {l l2 : List String} (hl : (l, l2) ∈ onTypes) :
    l.any (fits gsp0 "Converter") = false := by
  have key : ∀ p ∈ onTypes, p.1.any (fits gsp0 "Converter") = false := by decide +kernel
  exact key _ hl

theorem color_saved (text raw : Nat → String) (m : List Int) :
    apiCodec text raw "Color" (colorCode m) = some (.arr m) := by
  unfold apiCodec
  rw [if_neg (by decide +kernel : ¬ isDtypeClass "Color" = true), if_neg (by decide),
    if_pos (Or.inl rfl)]
  simp [colorCode, _root_.Encodable.encodek]

/-- The types in the table other than `dtype`. -/
def onNames : List String :=
  ["int", "float", "str", "memoryview", "bytes", "Transform", "Canvas", "Color", "Viewport", "Matrix",
   "Buffer", "Marker", "List", "LineCap", "LineStyle", "LineJoin", "Vec3"]

theorem dtype_unfit {c : String} (hc : isDtypeClass c = true) {l l2 : List String}
    (hl : (l, l2) ∈ onTypes) (hd : l ≠ ["dtype"]) : l.any (fits gsp0 c) = false := by
  have hne : ∀ d ∈ onNames ++ ["NoneType", "bool", "OID", "Vec2", "tracked"] ++ enumClasses,
      c ≠ d := by
    intro d hd e
    subst e
    have : ∀ d ∈ onNames ++ ["NoneType", "bool", "OID", "Vec2", "tracked"] ++ enumClasses,
      isDtypeClass d = false := by decide +kernel
    rw [this c hd] at hc
    cases hc
  have hmro : apiMro c = [c, "dtype", "object"] := by
    unfold apiMro
    rw [if_neg (hne _ (by simp)), if_neg (hne _ (by simp)), if_neg, if_neg, if_neg (hne _ (by simp)),
      if_pos hc]
    · rintro (h | h | h) <;> exact hne _ (by simp [onNames]) h
    · intro h
      exact hne c (List.mem_append_right _ (by simpa using h)) rfl
  have hcc : comparedClass gsp0 c = c ∨ comparedClass gsp0 c = "dtype" := by
    unfold comparedClass
    have : gsp0.mro c = [c, "dtype", "object"] := hmro
    rw [this]
    split
    · exact Or.inr rfl
    · exact Or.inl rfl
  have hfit : ∀ ann ∈ onNames, fits gsp0 c ann = false := by
    intro ann ha
    have h1 : ann ≠ "type" ∧ ann ≠ "object" ∧ ann ≠ "dtype" := by
      revert ann; decide
    have h2 : c ≠ ann := hne ann (List.mem_append_left _ (List.mem_append_left _ ha))
    rcases hcc with h | h
    · unfold fits
      have : gsp0.mro c = [c, "dtype", "object"] := hmro
      rw [h, this]
      simp [h1.1, h1.2.1, h1.2.2, Ne.symm h2, hne "NoneType" (by simp)]
    · unfold fits
      have : gsp0.mro "dtype" = ["dtype", "object"] := by decide +kernel
      rw [h, this]
      simp [h1.1, h1.2.1, h1.2.2]
  have hsub : ∀ p ∈ onTypes, p.1 ≠ ["dtype"] → ∀ ann ∈ p.1, ann ∈ onNames := by
    decide +kernel
  rw [List.any_eq_false]
  intro ann ha
  rw [hfit ann (hsub _ hl hd ann ha)]
  simp

/-- The class in which the results of the other conversions arrive. -/
def convertedClass (f : Nat) : String :=
  if f = 11 then "int" else if f = 14 ∨ f = 15 then "str" else "list"

theorem toColor_ok {m : List Int} {y : Val} (h : (toColor m).toOption = some y) :
    m.length = 4 ∧ y = .inst "Color" (colorCode m) := by
  unfold toColor at h
  by_cases hm : m.length = 4
  · rw [if_pos hm] at h
    cases h
    exact ⟨hm, rfl⟩
  · rw [if_neg hm] at h
    cases h

theorem color_loaded (text raw : Nat → String) (m : List Int) :
    loadedValue (apiCodec text raw) (.inst "Color" (colorCode m)) = .list m := by
  simp only [loadedValue, color_saved, decodeVal]

theorem converted_class {A : ArrayInfo} {text raw : Nat → String} {f : Nat}
    (hf : f ∈ allConverters.map Prod.snd) {v : Val}
    (hs : Savable (gspProg A) (apiCodec text raw) (.conv f v)) :
    f ∉ sterile ∧ className (jsonVal (gspProg A) (apiCodec text raw) (.conv f v)) =
      convertedClass f := by
  have hst : f ∉ sterile := fun h => sterile_unsavable h v hs
  refine ⟨hst, ?_⟩
  have hin : f ∈ [1, 2, 5, 6, 7, 11, 14, 15] := by
    have key : ∀ f ∈ allConverters.map Prod.snd, f ∉ sterile → f ∈ [1, 2, 5, 6, 7, 11, 14, 15] := by
      decide
    exact key f hf hst
  obtain ⟨y, hy, _⟩ := hs
  rw [jsonVal, hy, Option.getD_some]
  simp only [List.mem_cons, List.not_mem_nil, or_false] at hin
  rcases hin with rfl | rfl | rfl | rfl | rfl | rfl | rfl | rfl
  · cases v with
    | list m => obtain ⟨_, rfl⟩ := toColor_ok (m := m) hy; rw [color_loaded]; rfl
    | _ => cases hy
  · cases v with
    | tuple m => obtain ⟨_, rfl⟩ := toColor_ok (m := m) hy; rw [color_loaded]; rfl
    | _ => cases hy
  · cases v with
    | list m => cases hy; rfl
    | _ => cases hy
  · cases v with
    | tuple m => cases hy; rfl
    | _ => cases hy
  · cases hy; rfl
  · cases v with
    | int n =>
      have hy : (if 1 ≤ n ∧ n ≤ 12 then Except.ok (.inst "Marker" n.toNat)
        else Except.error Err.valueError : Except Err Val).toOption = some y := hy
      split at hy
      · cases hy; rfl
      · cases hy
    | _ => cases hy
  · cases v with
    | inst c p => cases hy; rfl
    | _ => cases hy
  · cases v with
    | str q =>
      have hy : (match A.parse q with
        | some p => Except.ok (.inst "Float32DType" p)
        | none => Except.error Err.valueError : Except Err Val).toOption = some y := hy
      split at hy
      · cases hy; rfl
      · cases hy
    | _ => cases hy

/-- A value that was recorded for one of these types and saved is accepted again. -/
theorem plain_again (A : ArrayInfo) {cs} (hcs : cs ∈ converterTables) (text raw : Nat → String)
    (on draw) {l l2 : List String} (hl : (l, l2) ∈ onTypes) {v u : Val} (hv : v.isObj = false)
    (hline : isLineMember v = false)
    (hu : recordedAs (gspProg A) cs l v = some u)
    (hs : Savable (gspProg A) (apiCodec text raw) u) :
    recordedAs (mplProg A on draw) allConverters l2
      (jsonVal (gspProg A) (apiCodec text raw) u) ≠ none := by
  have hacc : ∀ {v' : Val} {c : String}, className v' = c →
      acceptsClass gsp0 allConverters l2 c = true →
      recordedAs (mplProg A on draw) allConverters l2 v' ≠ none := fun h h' =>
    recordedAs_of_class h h'
  unfold recordedAs at hu
  cases hc : (candidates (gspProg A) cs (className v) l).getLast? with
  | some f =>
    rw [hc] at hu
    cases hu
    obtain ⟨ann, ha, b, hb⟩ := candidates_target (List.mem_of_getLast? hc)
    have hb : ((b, ann), f) ∈ allConverters := by
      simp only [converterTables, List.mem_cons, List.not_mem_nil, or_false] at hcs
      rcases hcs with rfl | rfl
      · exact List.mem_append_left _ hb
      · exact hb
    obtain ⟨hst, hcl⟩ := converted_class (List.mem_map.2 ⟨_, hb, rfl⟩) hs
    have key : ∀ p ∈ onTypes, ∀ e ∈ allConverters, e.1.2 ∈ p.1 → e.2 ∉ sterile →
        acceptsClass gsp0 allConverters p.2 (convertedClass e.2) = true := by decide +kernel
    exact hacc hcl (key _ hl _ hb ha hst)
  | none =>
    rw [hc] at hu
    dsimp only at hu
    split at hu
    · rename_i hfit
      cases hu
      have hfit : l.any (fits gsp0 (className v)) = true := hfit
      cases v with
      | inst c p =>
        obtain ⟨y, hy, he⟩ := hs
        cases hy
        have hj : jsonVal (gspProg A) (apiCodec text raw) (.inst c p) =
            loadedValue (apiCodec text raw) (.inst c p) := rfl
        rw [hj]
        simp only [loadedValue]
        have hfit : l.any (fits gsp0 c) = true := hfit
        unfold apiCodec
        by_cases h1 : isDtypeClass c = true
        · rw [if_pos h1]
          by_cases hd : l = ["dtype"]
          · refine hacc (c := "str") rfl ?_
            have key : ∀ p ∈ onTypes, p.1 = ["dtype"] →
              acceptsClass gsp0 allConverters p.2 "str" = true := by decide +kernel
            exact key _ hl hd
          · rw [dtype_unfit h1 hl hd] at hfit; cases hfit
        rw [if_neg h1]
        by_cases h2 : c = "memoryview" ∨ c = "ndarray" ∨ c = "tracked"
        · rw [if_pos h2]
          refine hacc (c := "str") rfl ?_
          rcases h2 with rfl | rfl | rfl <;> exact fits_arriving hl (by decide +kernel) hfit
        rw [if_neg h2]
        by_cases h3 : c = "Color" ∨ c = "Vec2" ∨ c = "Vec3"
        · rw [if_pos h3]
          refine hacc (c := "list") rfl ?_
          rcases h3 with rfl | rfl | rfl <;> exact fits_arriving hl (by decide +kernel) hfit
        rw [if_neg h3]
        by_cases h4 : enumClasses.contains c = true
        · rw [if_pos h4]
          refine hacc (c := "int") rfl ?_
          have h5 : c ∉ lineEnums := by simpa [isLineMember] using hline
          have key : ∀ c ∈ enumClasses, c ∉ lineEnums → (c, "int") ∈ arriving := by decide
          exact fits_arriving hl (key c (by simpa using h4) h5) hfit
        · exfalso
          have : apiCodec text raw c p = none := by
            unfold apiCodec
            rw [if_neg h1, if_neg h2, if_neg h3, if_neg h4]
          simp [Encodable, this] at he
      | obj x => cases hv
      | conv f x =>
        have hfit : l.any (fits gsp0 "Converter") = true := hfit
        rw [converter_unfit hl] at hfit
        cases hfit
      | none => exact hacc (c := "NoneType") rfl (fits_arriving (c := "NoneType") hl (by decide +kernel) hfit)
      | bool b => exact hacc (c := "bool") rfl (fits_arriving (c := "bool") hl (by decide +kernel) hfit)
      | int n => exact hacc (c := "int") rfl (fits_arriving (c := "int") hl (by decide +kernel) hfit)
      | oid n => exact hacc (c := "int") rfl (fits_arriving (c := "OID") hl (by decide +kernel) hfit)
      | float q => exact hacc (c := "float") rfl (fits_arriving (c := "float") hl (by decide +kernel) hfit)
      | str q => exact hacc (c := "str") rfl (fits_arriving (c := "str") hl (by decide +kernel) hfit)
      | bytes q => exact hacc (c := "str") rfl (fits_arriving (c := "bytes") hl (by decide +kernel) hfit)
      | list q => exact hacc (c := "list") rfl (fits_arriving (c := "list") hl (by decide +kernel) hfit)
      | tuple q => exact hacc (c := "list") rfl (fits_arriving (c := "tuple") hl (by decide +kernel) hfit)
    · cases hu

/-- `None` is recorded as it is. -/
theorem none_recorded (A : ArrayInfo) {cs} {sg : Sig} {k : String} {u : Val} {l : List String}
    (hl : dget sg.annots k = some l) (hu : recordedArg (gspProg A) cs sg k .none = some u) : u = .none := by
  have hk : keptArg sg k .none = .none := rfl
  simp only [recordedArg, hk, hl] at hu
  have hf : ∀ ann, fits (gspProg A) "NoneType" ann = true := by
    intro ann
    have : comparedClass (gspProg A) "NoneType" = "NoneType" := rfl
    simp [fits, this]
  have hc : candidates (gspProg A) cs (className .none) l = [] := by
    have : className .none = "NoneType" := rfl
    unfold candidates
    rw [this]
    cases l with
    | nil => rfl
    | cons a l => simp [hf a]
  unfold recordedAs at hu
  rw [hc] at hu
  simp only [Val.isObj, Bool.false_eq_true, if_false, List.getLast?_nil] at hu
  split at hu
  · exact (Option.some.inj hu).symm
  · cases hu

/-- No axis arrives for no axis. -/
theorem axis_arrives {A : ArrayInfo} {text raw : Nat → String} {on draw cs ref made} {o o' : Obj} {b b'}
    (hm : o.cls = "Markers") (hcls : o'.cls = o.cls) (hb : dget b "axis" = some .none)
    (hd : DeliveredArgs (gspProg A) (mplProg A on draw) cs (jsonVal (gspProg A) (apiCodec text raw)) ref made
      o.cls "__init__" b b') : axisRaise o' "__init__" b' = none := by
  obtain ⟨sg, hs, _, hdel⟩ := hd
  obtain ⟨u, v', hu, hv', hd⟩ := hdel _ _ hb
  have hsg : ∃ l, dget sg.annots "axis" = some l := by
    rw [hm] at hs
    have hs : (findRow gspRows "Markers" "__init__").map Row.sig = some sg := hs
    have key : (findRow gspRows "Markers" "__init__").all (fun r => (dget r.sig.annots "axis").isSome) =
        true := by decide +kernel
    cases hr : findRow gspRows "Markers" "__init__" with
    | none => rw [hr] at hs; cases hs
    | some r =>
      rw [hr] at hs key
      cases hs
      exact Option.isSome_iff_exists.1 key
  obtain ⟨l, hl⟩ := hsg
  have := none_recorded A hl hu
  subst this
  have : v' = .none := by
    cases hd with
    | value h _ => rfl
    | converted h hc _ _ => cases hc
    | built h hc _ _ _ => cases hc
  subst this
  unfold axisRaise
  rw [hv']
  split <;> rfl

/-- The copy of an object was made with what is delivered for the arguments it was made with. -/
theorem delivered_entry {P P2 : Prog} {cs t ref made} {cls : String} :
    ∀ {l l' : List (String × Dict String Val)}, DeliveredLog P P2 cs t ref made cls l l' →
    ∀ {f : String} {b}, dget l f = some b →
      ∃ b', dget l' f = some b' ∧ DeliveredArgs P P2 cs t ref made cls f b b' := by
  intro l l' h
  induction h with
  | nil => intro f b hb; cases hb
  | @cons e e' l l' he _ ih =>
    intro f b hb
    obtain ⟨f0, b0⟩ := e
    obtain ⟨f1, b1⟩ := e'
    obtain ⟨hf, hd⟩ := he
    dsimp only at hf hd
    subst hf
    by_cases h : f1 = f
    · subst h
      simp only [dget, if_true, Option.some.injEq] at hb ⊢
      subst hb
      exact ⟨b1, rfl, hd⟩
    · simp only [dget, if_neg h] at hb ⊢
      exact ih hb

/-- A cap arrives for a cap. -/
theorem caps_arrive {A : ArrayInfo} {text raw : Nat → String} {on draw cs ref made} {o o' : Obj}
    (hcs : cs ∈ converterTables) (hm : o.cls = "Paths") (hc : HasCap o)
    (hlog : DeliveredLog (gspProg A) (mplProg A on draw) cs (jsonVal (gspProg A) (apiCodec text raw)) ref made
      o.cls o.log o'.log) : capsRaise o' "render" = none := by
  unfold HasCap at hc
  cases hb : dget o.log "__init__" with
  | none => rw [hb] at hc; exact hc.elim
  | some b =>
    rw [hb] at hc
    simp only [Option.bind_some] at hc
    cases hv : dget b "line_caps" with
    | none => rw [hv] at hc; exact hc.elim
    | some v =>
      rw [hv] at hc
      cases v with
      | inst c n =>
        obtain ⟨rfl, hn⟩ := hc
        obtain ⟨b', hb', sg, hs, _, hdel⟩ := delivered_entry hlog hb
        obtain ⟨u, v', hu, hv', hd⟩ := hdel _ _ hv
        have hsg : dget sg.annots "line_caps" = some ["Transform", "Buffer", "LineCap"] := by
          rw [hm] at hs
          have hs : (findRow gspRows "Paths" "__init__").map Row.sig = some sg := hs
          have key : (findRow gspRows "Paths" "__init__").all (fun r =>
              decide (dget r.sig.annots "line_caps" = some ["Transform", "Buffer", "LineCap"])) = true := by
            decide +kernel
          cases hr : findRow gspRows "Paths" "__init__" with
          | none => rw [hr] at hs; cases hs
          | some r =>
            rw [hr] at hs key
            cases hs
            simpa using key
        have hk : keptArg sg "line_caps" (.inst "LineCap" n) = .inst "LineCap" n := rfl
        simp only [recordedArg, hk, hsg] at hu
        have hcand : (candidates (gspProg A) cs "LineCap" ["Transform", "Buffer", "LineCap"]).getLast? = none := by
          show (candidates gsp0 cs "LineCap" ["Transform", "Buffer", "LineCap"]).getLast? = none
          have key : ∀ cs ∈ converterTables,
              (candidates gsp0 cs "LineCap" ["Transform", "Buffer", "LineCap"]).getLast? = none := by
            decide +kernel
          exact key cs hcs
        have hcl : className (.inst "LineCap" n) = "LineCap" := rfl
        unfold recordedAs at hu
        rw [hcl, hcand] at hu
        simp only [Val.isObj, Bool.false_eq_true, if_false] at hu
        have hu : u = .inst "LineCap" n := by
          split at hu
          · exact (Option.some.inj hu).symm
          · cases hu
        subst hu
        have ht : jsonVal (gspProg A) (apiCodec text raw) (.inst "LineCap" n) = .int n := rfl
        have : v' = .int n := by
          cases hd with
          | value h _ => exact ht
          | converted h hc _ _ => rw [ht] at hc; cases hc
          | built h hc _ _ _ => rw [ht] at hc; cases hc
        subst this
        unfold capsRaise
        rw [hb', Option.bind_some, hv', Option.bind_some]
        split
        · have : (n : Int) = 1 ∨ (n : Int) = 2 ∨ (n : Int) = 3 := by omega
          simp only [capRaise, intValue]
          rw [if_pos this]
        · rfl
      | _ => exact hc.elim

/-- The body of a portable function accepts what is delivered in the backend. -/
theorem portable_tolerated {A : ArrayInfo} {text raw : Nat → String}
    {draw : Obj → String → Dict String Val → Option Err} (hdraw : ∀ o f b, draw o f b = none)
    {o : Obj} {f : String} {r r2 : Row} {args kwargs b} (hrow : PortableRow (o.cls, f) r r2)
    (hb : bindArgs r.sig args kwargs = .ok b)
    {cs} (hcs : cs ∈ converterTables) (hrec : Recordable (gspProg A) cs r.sig b)
    (hsave : SavableArgs (gspProg A) (apiCodec text raw) cs o.cls f args kwargs)
    (hr : gspRaises o f b = none) (on : Bool) (hlist : on = true → o.cls ≠ "List")
    (hax : o.cls = "Markers" → f = "__init__" → dget b "axis" = some .none)
    (hcap : o.cls = "Paths" → f = "render" → HasCap o) :
    Tolerated (gspProg A) (mplProg A on draw) cs
      (jsonVal (gspProg A) (apiCodec text raw)) o f b := by
  intro ref made o' b' hcls hlog hdargs
  have hdargs' := hdargs
  obtain ⟨sg, hs, hkeys, hdel⟩ := hdargs
  have hsg : sg = r.sig := by
    have : (findRow gspRows o.cls f).map Row.sig = some sg := hs
    rw [hrow.here] at this
    cases this; rfl
  subst hsg
  have hB := bindArgs_ok hb
  show mplRaises on draw o' f b' = none
  have hnone : gspRaises o' f b' = none := by
    unfold gspRaises at hr ⊢
    rw [if_neg (by rintro ⟨h, _⟩; exact hrow.runs.2 (hcls ▸ h))]
    rw [if_neg (by rintro ⟨h, _⟩; exact hrow.runs.2 h)] at hr
    cases hp : dget b "positions" with
    | none =>
      have : dget b' "positions" = none := by
        cases h : dget b' "positions" with
        | none => rfl
        | some v =>
          obtain ⟨v', hv'⟩ := (mem_dkeys _ _).1 ((hkeys _).1 ((mem_dkeys _ _).2 ⟨v, h⟩))
          rw [hp] at hv'; cases hv'
      rw [this]
    | some v =>
      rw [hp] at hr
      dsimp only at hr
      have hpp : "positions" ∈ r.sig.params := by
        rw [← hB.keys]; exact (mem_dkeys _ _).2 ⟨v, hp⟩
      obtain ⟨ha, hdf⟩ := hrow.positions hpp
      have hl : hasLen v = true := by
        cases h : hasLen v with
        | true => rfl
        | false => rw [h] at hr; cases hr
      rw [if_pos hl] at hr
      have hvo : v.isObj = true := by
        cases h : v.isObj with
        | true => rfl
        | false =>
          obtain ⟨u, hu⟩ := hrec _ _ hp
          have hk : keptArg r.sig "positions" v = v := by simp [keptArg, h]
          have hu' := hu
          simp only [recordedArg, hk, h, ha, Bool.false_eq_true, if_false] at hu'
          have hno : u.isObj = false := by
            cases v with
            | obj x => cases h
            | _ =>
              unfold recordedAs at hu'
              split at hu'
              · cases hu'; rfl
              · split at hu'
                · cases hu'; rfl
                · cases hu'
          exact absurd (hsave _ _ hs hb _ _ _ hp hu hno) (positions_refused A hcs h hl hu')
      obtain ⟨u, v', hu, hv', hd⟩ := hdel _ _ hp
      have hu' : u.isObj = true := by
        have hk : keptArg r.sig "positions" v = v := by simp [keptArg, hvo, hdf]
        simp only [recordedArg, hk, hvo, if_true, Option.some.injEq] at hu
        rw [← hu]; exact hvo
      rw [hv']
      have hl' : hasLen v' = true := by
        cases hd with
        | object h => rfl
        | value h _ => rw [hu'] at h; cases h
        | converted h _ _ _ => rw [hu'] at h; cases h
        | built h _ _ _ _ => rfl
      dsimp only
      rw [if_pos hl']
      cases hi : dget b "indices" with
      | none =>
        have : dget b' "indices" = none := by
          cases h : dget b' "indices" with
          | none => rfl
          | some v =>
            obtain ⟨v', hv'⟩ := (mem_dkeys _ _).1 ((hkeys _).1 ((mem_dkeys _ _).2 ⟨v, h⟩))
            rw [hi] at hv'; cases hv'
        rw [this]; rfl
      | some i =>
        rw [hi] at hr
        have hr : indicesRaise i = none := hr
        have hip : "indices" ∈ r.sig.params := by
          rw [← hB.keys]; exact (mem_dkeys _ _).2 ⟨i, hi⟩
        obtain ⟨ha, hdf⟩ := hrow.indices hip
        obtain ⟨u, i', hu, hi', hd⟩ := hdel _ _ hi
        rw [hi']
        show indicesRaise i' = none
        have hk : keptArg r.sig "indices" i = i := by
          unfold keptArg; rw [hdf]; simp
        have hu0 := hu
        simp only [recordedArg, hk, ha] at hu
        cases hio : i.isObj with
        | true =>
          simp only [hio, if_true, Option.some.injEq] at hu
          subst hu
          cases hd with
          | object h => rfl
          | value h _ => rw [hio] at h; cases h
          | converted h _ _ _ => rw [hio] at h; cases h
          | built h _ _ _ _ => rfl
        | false =>
          simp only [hio, Bool.false_eq_true, if_false] at hu
          have hno : u.isObj = false := by
            cases i with
            | obj x => cases hio
            | _ =>
              unfold recordedAs at hu
              split at hu
              · cases hu; rfl
              · split at hu
                · cases hu; rfl
                · cases hu
          obtain ⟨h1, h2⟩ := indices_arrive A hcs text raw hio hr hu
            (hsave _ _ hs hb _ _ _ hi hu0 hno)
          cases hd with
          | object h => rfl
          | value h _ => exact h1
          | converted h hc _ _ => exact absurd hc (h2 _ _)
          | built h hc _ _ _ => exact absurd hc (h2 _ _)
  unfold mplRaises
  rw [if_neg (by rintro ⟨h, h'⟩; exact hrow.runs.1 (by rw [← hcls, h, h'])),
    if_neg (by rintro ⟨h, h', _⟩; exact hlist h (hcls ▸ h')), hnone]
  have h1 : axisRaise o' f b' = none := by
    by_cases h : o.cls = "Markers" ∧ f = "__init__"
    · obtain ⟨hm, rfl⟩ := h
      exact axis_arrives hm hcls (hax hm rfl) hdargs'
    · unfold axisRaise
      rw [hcls, if_neg h]
  have h2 : capsRaise o' f = none := by
    by_cases h : o.cls = "Paths" ∧ f = "render"
    · obtain ⟨hm, rfl⟩ := h
      exact caps_arrive hcs hm (hcap hm rfl) hlog
    · unfold capsRaise
      rw [hcls, if_neg h]
  simp only [h1, h2]
  exact hdraw _ _ _

/-- The arguments that a call gets are given or default values. -/
theorem bound_given {sg : Sig} {args kwargs b} (hb : bindArgs sg args kwargs = .ok b) {k : String}
    {v : Val} (hv : dget b k = some v) :
    v ∈ args ++ kwargs.map Prod.snd ∨ (k, v) ∈ sg.defaults := by
  have hs := (bindArgs_ok hb).vals _ (dget_mem hv)
  dsimp only [seenArg, givenArg] at hs
  cases h1 : dget (sg.params.zip args) k with
  | some v =>
    rw [h1] at hs
    simp only [Option.some_or, Option.some.injEq] at hs
    subst hs
    exact Or.inl (List.mem_append_left _ (List.of_mem_zip (dget_mem h1)).2)
  | none =>
    rw [h1] at hs
    simp only [Option.none_or] at hs
    cases h2 : dget kwargs k with
    | some v =>
      rw [h2] at hs
      simp only [Option.some_or, Option.some.injEq] at hs
      subst hs
      exact Or.inl (List.mem_append_right _ (List.mem_map.2 ⟨_, dget_mem h2, rfl⟩))
    | none =>
      rw [h2] at hs
      simp only [Option.none_or] at hs
      exact Or.inr (dget_mem hs)

/-- Portable calls that succeed, with savable arguments, send them. -/
theorem portable_sendable {A : ArrayInfo} {text raw : Nat → String} {draw cs2} {on : Bool}
    {cls f : String} {r r2 : Row} {args kwargs b} (hrow : PortableRow (cls, f) r r2)
    (hb : bindArgs r.sig args kwargs = .ok b)
    {cs} (hcs : cs ∈ converterTables) (hrec : Recordable (gspProg A) cs r.sig b)
    (hsave : SavableArgs (gspProg A) (apiCodec text raw) cs cls f args kwargs)
    (hon : on = true → (cls, f) ∈ portableOn ∧ cs2 = allConverters ∧
      ∀ v ∈ args ++ kwargs.map Prod.snd, isLineMember v = false) :
    Sendable (gspProg A) (mplProg A on draw) cs cs2 on
      (jsonVal (gspProg A) (apiCodec text raw)) r.sig r2.sig b := by
  intro k v hv
  obtain ⟨u, hu⟩ := hrec k v hv
  have hs : (gspProg A).sig cls f = some r.sig := by
    show (findRow gspRows cls f).map Row.sig = _
    rw [hrow.here]; rfl
  refine ⟨u, hu, fun hno => ?_⟩
  have hsv := hsave r.sig b hs hb k v u hv hu hno
  refine savable_arrives hsv ?_
  intro h l hl
  obtain ⟨hp, rfl, hline⟩ := hon h
  obtain ⟨l1, hl1, hty⟩ := (portableOn_row hp hrow.here hrow.there).2 _ (dget_mem hl)
  have hno' : (keptArg r.sig k v).isObj = false := by
    cases h : (keptArg r.sig k v).isObj with
    | false => rfl
    | true =>
      simp only [recordedArg, h, if_true, Option.some.injEq] at hu
      rw [hu] at h
      rw [h] at hno
      cases hno
  have hdef : ∀ d, (k, d) ∈ r.sig.defaults → isLineMember d = false := by
    intro d hd
    have := hrow.defaults _ hd
    dsimp only at this
    subst this
    rfl
  have hline' : isLineMember (keptArg r.sig k v) = false := by
    have hv' : isLineMember v = false := by
      rcases bound_given hb hv with h | h
      · exact hline v h
      · exact hdef v h
    unfold keptArg
    split
    · cases hd : dget r.sig.defaults k with
      | none => exact hv'
      | some d => exact hdef d (dget_mem hd)
    · exact hv'
  simp only [recordedArg, hno', Bool.false_eq_true, if_false, hl1] at hu
  exact plain_again A hcs text raw on draw hty hno' hline' hu hsv

theorem proper_live {w : World} {sg : Sig} {args kwargs b} (hd : ∀ p ∈ sg.defaults, p.2.isObj = false)
    (hp : ProperArgs w args kwargs) (hb : bindArgs sg args kwargs = .ok b) :
    ∀ k x, dget b k = some (.obj x) → x < w.heap.length := by
  intro k x hx
  rcases bound_given hb hx with h | h
  · exact hp.2 (.obj x) h
  · have := hd _ h
    cases this

theorem portable_agree {A : ArrayInfo} {draw cs2} {on : Bool} {p : String × String} {r r2 : Row}
    (hrow : PortableRow p r r2) (hon : on = true → p ∈ portableOn ∧ cs2 = allConverters) :
    SigsAgree (mplProg A on draw) cs2 on r.sig r2.sig :=
  ⟨fun k => by rw [hrow.params], fun k d hd h l hl => by
    obtain ⟨hp, rfl⟩ := hon h
    obtain ⟨h1, h2⟩ := portableOn_row hp hrow.here hrow.there
    have := h1 _ (dget_mem hd)
    dsimp only at this
    subst this
    obtain ⟨l1, _, hty⟩ := h2 _ (dget_mem hl)
    have key : ∀ p ∈ onTypes, acceptsClass gsp0 allConverters p.2 "NoneType" = true := by
      decide +kernel
    exact recordedAs_of_class (c := "NoneType") rfl (key _ hty)⟩

/-- Markers that are given no axis get none. -/
theorem noAxis_bound {r : Row} (hr : findRow gspRows "Markers" "__init__" = some r) {args kwargs b}
    (hb : bindArgs r.sig args kwargs = .ok b) (h : NoAxis args kwargs) : dget b "axis" = some .none := by
  have hB := bindArgs_ok hb
  have hpar : r.sig.params = ["positions", "types", "sizes", "axis", "angles", "fill_colors", "line_colors",
      "line_widths"] := by
    have key : (findRow gspRows "Markers" "__init__").all (fun r => decide (r.sig.params =
      ["positions", "types", "sizes", "axis", "angles", "fill_colors", "line_colors", "line_widths"])) =
        true := by decide +kernel
    rw [hr] at key
    simpa using key
  obtain ⟨v, hv⟩ := (mem_dkeys b "axis").1 (by rw [hB.keys, hpar]; decide)
  have hs := hB.vals _ (dget_mem hv)
  have hz : dget (r.sig.params.zip args) "axis" = args[3]? := by
    rw [hpar]
    rcases args with _ | ⟨a0, _ | ⟨a1, _ | ⟨a2, _ | ⟨a3, l⟩⟩⟩⟩ <;> rfl
  dsimp only [seenArg, givenArg] at hs
  unfold NoAxis at h
  rw [hz, h] at hs
  rw [hv, ← hs]
  rfl

theorem portable_act {A : ArrayInfo} {text raw : Nat → String} {draw cs2} {on : Bool} {cs}
    (hcs : cs ∈ converterTables)
    (hdraw : ∀ o f b, draw o f b = none) {w : World} {a : Act} (hw : w.converters = cs)
    (hon : w.recording = true) (hok : (step (gspProg A) w a.op).2 = .ok ())
    {fs : List (String × String)} (hport : PortableAct fs w a)
    (hfs : ∀ p ∈ fs, p ∈ portable ∧ (on = true → p ∈ portableOn ∧ cs2 = allConverters))
    (hline : on = true → ∀ v ∈ a.values, isLineMember v = false)
    (hsave : SavableAct (gspProg A) (apiCodec text raw) cs w a) :
    Replayable (gspProg A) (mplProg A on draw) cs cs2 on jsonNames
      (jsonVal (gspProg A) (apiCodec text raw)) w a := by
  cases a with
  | create cls args kwargs =>
    obtain ⟨hprop, hp, hna⟩ := hport
    have hfp := hfs _ hp
    obtain ⟨r, r2, hrow⟩ := portable_row hfp.1
    obtain ⟨sg, b, hs, hb, hr, hrec⟩ := create_ok_inv (gspProg_wf A) hprop.1 hon hok
    have hsg : (gspProg A).sig cls "__init__" = some r.sig := by
      show (findRow gspRows cls "__init__").map Row.sig = _
      rw [hrow.here]; rfl
    rw [hsg] at hs
    cases hs
    rw [hw] at hrec
    have hov : (gspProg A).override cls "__init__" = r.name := by
      show (findRow gspRows cls "__init__").bind Row.name = _
      rw [hrow.here]; rfl
    refine ⟨r.sig, r2.sig, b, hsg, ?_, portable_agree hrow hfp.2, hprop.1, hb,
      proper_live (gspProg_wf A _ _ _ hsg).2 hprop hb, portable_sendable hrow hb hcs hrec hsave.2
        (fun h => ⟨(hfp.2 h).1, (hfp.2 h).2, hline h⟩),
      hr, portable_tolerated hdraw hrow hb hcs hrec hsave.2 hr on
        (fun h => (portableOn_sub (hfp.2 h).1).2)
        (fun h _ => noAxis_bound (h ▸ hrow.here) hb (hna h)) (fun _ h => absurd h (by decide)), ?_⟩
    · show (findRow mplRows cls "__init__").map Row.sig = _
      rw [hrow.there]; rfl
    · rw [hov]
      exact hrow.path rfl
  | call r0 f args kwargs =>
    obtain ⟨hprop, hfi, hp⟩ := hport
    obtain ⟨o, sg, b, ho, hs, hb, hr, hrec⟩ := call_ok_inv (gspProg_wf A) hprop.1 hon hok
    have hfp := hfs _ (hp o ho).1
    obtain ⟨r, r2, hrow⟩ := portable_row hfp.1
    have hsg : (gspProg A).sig o.cls f = some r.sig := by
      show (findRow gspRows o.cls f).map Row.sig = _
      rw [hrow.here]; rfl
    rw [hsg] at hs
    cases hs
    rw [hw] at hrec
    have hov : (gspProg A).override o.cls f = r.name := by
      show (findRow gspRows o.cls f).bind Row.name = _
      rw [hrow.here]; rfl
    refine ⟨o, r.sig, r2.sig, b, ho, hsg, ?_, portable_agree hrow hfp.2, hprop.1, hb,
      proper_live (gspProg_wf A _ _ _ hsg).2 hprop hb,
      portable_sendable hrow hb hcs hrec (hsave o ho).2
        (fun h => ⟨(hfp.2 h).1, (hfp.2 h).2, hline h⟩),
      hr, portable_tolerated hdraw hrow hb hcs hrec (hsave o ho).2 hr on
        (fun h => (portableOn_sub (hfp.2 h).1).2) (fun _ h => absurd h hfi)
        (hp o ho).2, ?_⟩
    · show (findRow mplRows o.cls f).map Row.sig = _
      rw [hrow.there]; rfl
    · rw [hov]
      exact ⟨(hrow.name hfi).1, (hrow.name hfi).2, hfi⟩

theorem portable_session {A : ArrayInfo} {text raw : Nat → String} {draw cs2} {on : Bool} {cs}
    (hcs : cs ∈ converterTables)
    (hdraw : ∀ o f b, draw o f b = none) {fs : List (String × String)}
    (hfs : ∀ p ∈ fs, p ∈ portable ∧ (on = true → p ∈ portableOn ∧ cs2 = allConverters)) :
    ∀ {as : List Act} {w : World}, RecInv 0 w →
    w.converters = cs → Succeeds (gspProg A) w as → PortableSession fs (gspProg A) w as →
    (on = true → ∀ a ∈ as, ∀ v ∈ a.values, isLineMember v = false) →
    SavableSession (gspProg A) (apiCodec text raw) cs w as →
    ReplayableSession (gspProg A) (mplProg A on draw) cs cs2 on jsonNames
      (jsonVal (gspProg A) (apiCodec text raw)) w as := by
  intro as
  induction as with
  | nil => intros; trivial
  | cons a as ih =>
    intro w hinv hw hok hport hline hsave
    have hr := portable_act (text := text) (raw := raw) (cs2 := cs2) hcs hdraw hw hinv.on hok.1 hport.1 hfs
      (fun h => hline h a List.mem_cons_self) hsave.1
    obtain ⟨c, _, h2, h3, _⟩ := savable_act (gspProg_wf A) hw hinv hr hsave.1
    exact ⟨hr, ih h2 h3 hok.2 hport.2 (fun h a' ha => hline h a' (List.mem_cons_of_mem _ ha)) hsave.2⟩

end Verif
