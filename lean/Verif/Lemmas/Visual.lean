import Verif.Lemmas.Py
import Verif.Spec.Visual
import Mathlib.Tactic.Linarith
import Mathlib.Data.List.Perm.Basic
import Mathlib.Data.List.Induction
/-
Lemmas on visuals.
-/

namespace Verif

/-! ### Permutation of lists -/

theorem permute_eq_map {α : Type} [Inhabited α] {idx : List Nat} {xs : List α}
    (h : ∀ i ∈ idx, i < xs.length) : permute idx xs = idx.map (fun i => (xs[i]?).getD default) := by
  induction idx with
  | nil => rfl
  | cons a idx ih =>
    have ha : a < xs.length := h a (by simp)
    have ih := ih (fun i hi => h i (List.mem_cons_of_mem _ hi))
    simp only [permute, List.map_cons, List.filterMap_cons, List.getElem?_eq_getElem ha] at *
    simp [ih]

theorem permute_getElem? {α : Type} {idx : List Nat} {xs : List α}
    (h : ∀ i ∈ idx, i < xs.length) (k : Nat) :
    (permute idx xs)[k]? = (idx[k]?).bind (fun i => xs[i]?) := by
  induction idx generalizing k with
  | nil => simp [permute]
  | cons a idx ih =>
    have ha : a < xs.length := h a (by simp)
    have ih := ih (fun i hi => h i (List.mem_cons_of_mem _ hi))
    have hp : permute (a :: idx) xs = xs[a] :: permute idx xs := by
      simp [permute, List.filterMap_cons, List.getElem?_eq_getElem ha]
    rw [hp]
    cases k with
    | zero => simp [List.getElem?_eq_getElem ha]
    | succ k => simpa using ih k

theorem permute_length {α : Type} {idx : List Nat} {xs : List α}
    (h : ∀ i ∈ idx, i < xs.length) : (permute idx xs).length = idx.length := by
  induction idx with
  | nil => rfl
  | cons a idx ih =>
    have ha : a < xs.length := h a (by simp)
    have ih := ih (fun i hi => h i (List.mem_cons_of_mem _ hi))
    simp only [permute, List.filterMap_cons, List.getElem?_eq_getElem ha, List.length_cons] at *
    omega

theorem perm_range_lt {idx : List Nat} {n : Nat} (h : idx.Perm (List.range n)) :
    ∀ i ∈ idx, i < n := fun i hi => List.mem_range.1 (h.mem_iff.1 hi)

theorem map_getElem?_range {α β : Type} (xs : List α) (f : Option α → β) (n : Nat)
    (hn : n = xs.length) : (List.range n).map (fun k => f xs[k]?) = xs.map (fun x => f (some x)) := by
  subst hn
  apply List.ext_getElem?
  intro k
  rw [List.getElem?_map, List.getElem?_map]
  by_cases hk : k < xs.length
  · rw [List.getElem?_range hk]
    simp [List.getElem?_eq_getElem hk]
  · rw [List.getElem?_eq_none (by simpa using hk), List.getElem?_eq_none (by simpa using hk)]
    rfl

section attrs
variable {n : Nat} {idx : List Nat}

theorem colourAt_sortAttr (hp : idx.Perm (List.range n)) {a : Attr} (ha : FitsColour n a)
    {k i : Nat} (hk : idx[k]? = some i) :
    colourAt (sortAttr n idx a) k = meantColour n a i := by
  have hlt := perm_range_lt hp
  have hlen : idx.length = n := by simpa using hp.length_eq
  have hkn : k < n := by rw [← hlen]; exact (List.getElem?_eq_some_iff.1 hk).1
  cases a with
  | other x => rfl
  | flat xs => simp only [FitsColour] at ha; simp [sortAttr, ha, colourAt, meantColour]
  | items xs =>
    simp only [FitsColour] at ha
    by_cases h : xs.length = n
    · subst h
      have hl := permute_length hlt
      simp only [sortAttr, if_true, colourAt, meantColour]
      rw [hl, hlen, Nat.mod_eq_of_lt hkn, permute_getElem? hlt, hk]; rfl
    · have h1 : xs.length = 1 := ha.resolve_left h
      simp only [sortAttr, if_neg h, colourAt, meantColour]
      rw [h1, Nat.mod_one]

theorem widthAt_sortAttr (hp : idx.Perm (List.range n)) {a : Attr} (ha : FitsWidth n a)
    {k i : Nat} (hk : idx[k]? = some i) :
    widthAt (sortAttr n idx a) k = meantWidth n a i := by
  have hlt := perm_range_lt hp
  have hlen : idx.length = n := by simpa using hp.length_eq
  have hkn : k < n := by rw [← hlen]; exact (List.getElem?_eq_some_iff.1 hk).1
  cases a with
  | other x => rfl
  | flat xs =>
    simp only [FitsWidth] at ha
    by_cases h : xs.length = n
    · subst h
      have hl := permute_length hlt
      simp only [sortAttr, if_true, widthAt, meantWidth]
      rw [hl, hlen, Nat.mod_eq_of_lt hkn, permute_getElem? hlt, hk]; rfl
    · have h1 : xs.length = 1 := ha.resolve_left h
      simp only [sortAttr, if_neg h, widthAt, meantWidth]
      rw [h1, Nat.mod_one]
  | items xs =>
    simp only [FitsWidth] at ha
    by_cases h : xs.length = n
    · subst h
      have hl := permute_length hlt
      simp only [sortAttr, if_true, widthAt, meantWidth]
      rw [hl, hlen, Nat.mod_eq_of_lt hkn, permute_getElem? hlt, hk]; rfl
    · have h1 : xs.length = 1 := ha.resolve_left h
      simp only [sortAttr, if_neg h, widthAt, meantWidth]
      rw [h1, Nat.mod_one]

theorem sortSizes_getElem? (hp : idx.Perm (List.range n)) (a : Attr)
    {k i : Nat} (hk : idx[k]? = some i) :
    (sortSizes n idx a)[k]? = meantSize n a i := by
  have hlt := perm_range_lt hp
  have hlen : idx.length = n := by simpa using hp.length_eq
  have hkn : k < n := by rw [← hlen]; exact (List.getElem?_eq_some_iff.1 hk).1
  cases a with
  | other x => simp [sortSizes, meantSize, hkn]
  | flat xs =>
    by_cases h : xs.length = n
    · subst h
      simp only [sortSizes, if_true, meantSize, List.getElem?_map]
      rw [permute_getElem? hlt, hk]; rfl
    · simp [sortSizes, meantSize, h, hkn]
  | items xs =>
    by_cases h : xs.length = n
    · subst h
      simp only [sortSizes, if_true, meantSize, List.getElem?_map]
      rw [permute_getElem? hlt, hk]; rfl
    · simp [sortSizes, meantSize, h, hkn]

end attrs

/-! ### Slices -/

theorem pySlice_nat {α : Type} (xs : List α) (a b : Nat) :
    pySlice xs (a : Int) (b : Int) = (xs.take b).drop a := by
  unfold pySlice
  have h (i : Nat) : (if ((i : Int)) < 0 then max 0 ((i : Int) + xs.length)
      else min (i : Int) xs.length).toNat = min i xs.length := by
    rw [if_neg (by omega)]; omega
  simp only [h]
  have h1 : xs.take (min b xs.length) = xs.take b := by
    by_cases hb : b ≤ xs.length
    · rw [Nat.min_eq_left hb]
    · rw [Nat.min_eq_right (by omega), List.take_of_length_le (Nat.le_refl _),
        List.take_of_length_le (by omega)]
  rw [h1]
  by_cases ha : a ≤ xs.length
  · rw [Nat.min_eq_left ha]
  · rw [Nat.min_eq_right (by omega), List.drop_eq_nil_of_le (by simp),
      List.drop_eq_nil_of_le (by simp; omega)]

theorem take_append_slice {α : Type} (xs : List α) (a b : Nat) (h : a ≤ b) :
    xs.take a ++ (xs.take b).drop a = xs.take b := by
  conv => rhs; rw [← List.take_append_drop a (xs.take b)]
  rw [List.take_take, Nat.min_eq_left h]

theorem cutSizes_flatten {α : Type} (xs : List α) (a : Nat) (ns : List Nat) :
    xs.take a ++ (cutSizes xs (a : Int) (ns.map (fun n : Nat => (n : Int)))).flatten
      = xs.take (a + ns.sum) := by
  induction ns generalizing a with
  | nil => simp [cutSizes]
  | cons n ns ih =>
    simp only [List.map_cons, cutSizes, List.flatten_cons, List.sum_cons]
    have hc : ((a : Int) + (n : Int)) = ((a + n : Nat) : Int) := by omega
    rw [hc, pySlice_nat, ← List.append_assoc, take_append_slice xs a (a + n) (by omega), ih]
    rw [Nat.add_assoc]

theorem cutSizes_lengths {α : Type} (xs : List α) (a : Nat) (ns : List Nat)
    (h : a + ns.sum ≤ xs.length) :
    (cutSizes xs (a : Int) (ns.map (fun n : Nat => (n : Int)))).map List.length = ns := by
  induction ns generalizing a with
  | nil => rfl
  | cons n ns ih =>
    simp only [List.sum_cons] at h
    simp only [List.map_cons, cutSizes]
    have hc : ((a : Int) + (n : Int)) = ((a + n : Nat) : Int) := by omega
    rw [hc, pySlice_nat, ih (a + n) (by omega)]
    simp only [List.length_drop, List.length_take]
    congr 1; omega

theorem cutEqual_flatten {α : Type} (xs : List α) (size k : Nat) :
    ((List.range k).map (fun i : Nat => pySlice xs (i * (size : Int)) ((i + 1) * (size : Int)))).flatten
      = xs.take (k * size) := by
  induction k with
  | zero => simp
  | succ k ih =>
    rw [List.range_succ, List.map_append, List.flatten_append, ih]
    simp only [List.map_cons, List.map_nil, List.flatten_cons, List.flatten_nil, List.append_nil]
    have h1 : ((k : Int) * (size : Int)) = ((k * size : Nat) : Int) := by push_cast; rfl
    have h2 : (((k : Int) + 1) * (size : Int)) = (((k + 1) * size : Nat) : Int) := by
      push_cast; rfl
    rw [h1, h2, pySlice_nat, take_append_slice]
    exact Nat.mul_le_mul_right _ (Nat.le_succ k)


/-! ### Variables -/

section vars
variable {V : Type} (fill : V → V → Except Err V)

/-- A history of assignments; failing ones change nothing. -/
def setAll (s : VarState V) (hist : List (String × V)) : VarState V :=
  hist.foldl (fun s nv => (setVariable fill s nv.1 nv.2).1) s

theorem setVariable_ins (s : VarState V) (name : String) (v : V) (k : String) :
    dget (setVariable fill s name v).1.ins k =
      if name = k then (dget s.ins k).map (fun _ => v) else dget s.ins k := by
  unfold setVariable
  cases h : dget s.ins name with
  | some w =>
    dsimp only
    rw [dget_dset]
    by_cases hk : name = k
    · subst hk; simp [h]
    · simp [hk]
  | none =>
    have hs : ∀ s' : VarState V, s'.ins = s.ins → dget s'.ins k =
        if name = k then (dget s.ins k).map (fun _ => v) else dget s.ins k := by
      intro s' hs'
      rw [hs']
      by_cases hk : name = k
      · subst hk; simp [h]
      · simp [hk]
    dsimp only
    cases dget s.outs name with
    | none => exact hs _ rfl
    | some old => dsimp only; cases fill old v <;> exact hs _ rfl

theorem setVariable_outs (s : VarState V) (name : String) (v : V) (k : String)
    (h : name ≠ k ∨ dget s.ins name ≠ none) :
    dget (setVariable fill s name v).1.outs k = dget s.outs k := by
  unfold setVariable
  cases hi : dget s.ins name with
  | some w => rfl
  | none =>
    have hk : name ≠ k := h.resolve_right (fun h => h hi)
    dsimp only
    cases dget s.outs name with
    | none => rfl
    | some old =>
      dsimp only
      cases fill old v with
      | error e => rfl
      | ok new => exact dget_dset_ne _ _ hk

theorem setAll_ins (s : VarState V) (hist : List (String × V)) (k : String) :
    dget (setAll fill s hist).ins k =
      (dget s.ins k).map (fun v => (lastValue k hist).getD v) := by
  induction hist using List.reverseRecOn with
  | nil => simp [setAll, lastValue]
  | append_singleton hist nv ih =>
    have : setAll fill s (hist ++ [nv]) = (setVariable fill (setAll fill s hist) nv.1 nv.2).1 := by
      simp [setAll]
    rw [this, setVariable_ins, ih]
    by_cases h : nv.1 = k
    · simp only [h, if_true, lastValue, List.filter_append]
      simp only [Option.map_map]
      congr 1
      funext v
      simp [h]
    · simp only [h, if_false, lastValue, List.filter_append]
      simp [h]

theorem setAll_outs (s : VarState V) (hist : List (String × V)) (k : String)
    (h : dget s.ins k ≠ none) : dget (setAll fill s hist).outs k = dget s.outs k := by
  induction hist using List.reverseRecOn with
  | nil => rfl
  | append_singleton hist nv ih =>
    have : setAll fill s (hist ++ [nv]) = (setVariable fill (setAll fill s hist) nv.1 nv.2).1 := by
      simp [setAll]
    rw [this, setVariable_outs, ih]
    by_cases hk : nv.1 = k
    · right
      rw [hk, setAll_ins]
      simpa using h
    · exact .inl hk

theorem setVariable_isSome_outs (s : VarState V) (name : String) (v : V) (k : String) :
    dget (setVariable fill s name v).1.outs k = none ↔ dget s.outs k = none := by
  unfold setVariable
  cases hi : dget s.ins name with
  | some w => rfl
  | none =>
    dsimp only
    cases ho : dget s.outs name with
    | none => rfl
    | some old =>
      dsimp only
      cases fill old v with
      | error e => rfl
      | ok new =>
        dsimp only
        rw [dget_dset]
        by_cases hk : name = k
        · subst hk; simp [ho]
        · simp [hk]

theorem setAll_outs_none (s : VarState V) (hist : List (String × V)) (k : String) :
    dget (setAll fill s hist).outs k = none ↔ dget s.outs k = none := by
  induction hist using List.reverseRecOn with
  | nil => rfl
  | append_singleton hist nv ih =>
    have : setAll fill s (hist ++ [nv]) = (setVariable fill (setAll fill s hist) nv.1 nv.2).1 := by
      simp [setAll]
    rw [this, setVariable_isSome_outs, ih]

theorem setAll_nodup (s : VarState V) (hist : List (String × V)) (h : (dkeys s.outs).Nodup) :
    (dkeys (setAll fill s hist).outs).Nodup := by
  induction hist using List.reverseRecOn with
  | nil => exact h
  | append_singleton hist nv ih =>
    have : setAll fill s (hist ++ [nv]) = (setVariable fill (setAll fill s hist) nv.1 nv.2).1 := by
      simp [setAll]
    rw [this]
    unfold setVariable
    cases dget (setAll fill s hist).ins nv.1 with
    | some _ => exact ih
    | none =>
      dsimp only
      cases dget (setAll fill s hist).outs nv.1 with
      | none => exact ih
      | some old =>
        dsimp only
        cases fill old nv.2 with
        | error e => exact ih
        | ok new => exact nodup_dkeys_dset _ _ _ ih

theorem dget_foldl_outs (d : Dict String V) (e : Dict String V) (k : String) :
    (dkeys e).Nodup →
    dget (e.foldl (fun d kv => dset d kv.1 kv.2) d) k = (dget e k).or (dget d k) := by
  induction e generalizing d with
  | nil => intro _; simp
  | cons kv e ih =>
    intro hn
    obtain ⟨k', v⟩ := kv
    have hn' : k' ∉ dkeys e ∧ (dkeys e).Nodup := by simpa [dkeys] using hn
    simp only [List.foldl_cons]
    rw [ih _ hn'.2, dget_dset]
    by_cases h : k' = k
    · subst h
      have : dget e k' = none := by
        cases he : dget e k' with
        | none => rfl
        | some w => exact absurd ((mem_dkeys e k').2 ⟨w, he⟩) hn'.1
      simp [dget, this]
    · simp [dget, h]

end vars

/-! ### Rendering -/

section rendering
variable {M D : Type} (b : RBody M D)

theorem ensure_spec (s : RState M D) (vp : Nat) :
    ensureCollection b s vp = (s, .ok ()) ∧ dget s.collections vp ≠ none ∨
    (∃ e, b.prepare = .error e ∧ ensureCollection b s vp = (s, .error e)) ∧
      dget s.collections vp = none ∨
    b.prepare = .ok () ∧ dget s.collections vp = none ∧
      ensureCollection b s vp = ({ s with
         collections := dset s.collections vp none,
         handlers := s.handlers ++ [vp],
         children := s.children ++ (if b.kind.scatters then [vp, vp] else [vp]) }, .ok ()) := by
  unfold ensureCollection
  cases h : dget s.collections vp with
  | some _ => exact .inl ⟨rfl, by simp⟩
  | none =>
    right
    cases hp : b.prepare with
    | error e => exact .inl ⟨⟨e, rfl, rfl⟩, rfl⟩
    | ok u => exact .inr ⟨rfl, rfl, rfl⟩

/-- What `ensureCollection` leaves alone. -/
theorem ensure_keeps (s : RState M D) (vp : Nat) :
    (ensureCollection b s vp).1.model = s.model ∧ (ensureCollection b s vp).1.view = s.view ∧
    (ensureCollection b s vp).1.proj = s.proj ∧
    (ensureCollection b s vp).1.transform = s.transform ∧
    (ensureCollection b s vp).1.tracker = s.tracker := by
  rcases ensure_spec b s vp with ⟨h, _⟩ | ⟨⟨e, _, h⟩, _⟩ | ⟨_, _, h⟩ <;> rw [h] <;> simp

theorem render_matrices_eq (s : RState M D) (c : RCall M) :
    (render b s c).1.model = c.model.getD s.model ∧
    (render b s c).1.view = c.view.getD s.view ∧
    (render b s c).1.proj = c.proj.getD s.proj ∧
    (render b s c).1.transform = (b.mul (c.proj.getD s.proj) (c.view.getD s.view)).bind
      (fun pv => b.mul pv (c.model.getD s.model)) := by
  unfold render
  have hk := ensure_keeps b { storeMatrices b.mul s c with tracker := none } c.viewport
  dsimp only
  generalize ensureCollection b { storeMatrices b.mul s c with tracker := none } c.viewport = r at *
  obtain ⟨s1, r⟩ := r
  obtain ⟨h1, h2, h3, h4, h5⟩ := hk
  dsimp only [storeMatrices] at h1 h2 h3 h4 h5
  have goal (s' : RState M D) (e1 : s'.model = s1.model) (e2 : s'.view = s1.view)
      (e3 : s'.proj = s1.proj) (e4 : s'.transform = s1.transform) :
      s'.model = c.model.getD s.model ∧ s'.view = c.view.getD s.view ∧
      s'.proj = c.proj.getD s.proj ∧
      s'.transform = (b.mul (c.proj.getD s.proj) (c.view.getD s.view)).bind
      (fun pv => b.mul pv (c.model.getD s.model)) :=
    ⟨e1.trans h1, e2.trans h2, e3.trans h3, e4.trans h4⟩
  cases r with
  | error e => exact goal _ rfl rfl rfl rfl
  | ok u =>
    dsimp only
    cases ht : s1.transform with
    | none => exact goal _ rfl rfl rfl ht.symm
    | some m =>
      dsimp only
      cases b.draw m c.viewport with
      | error e => exact goal _ rfl rfl rfl rfl
      | ok d => exact goal _ rfl rfl rfl ht.symm

theorem lastGiven_snoc (start : M) (gs : List (Option M)) (g : Option M) :
    lastGiven start (gs ++ [g]) = g.getD (lastGiven start gs) := by
  cases g <;> simp [lastGiven, List.filterMap_append]

/-- The matrices remembered after a history, whatever the resizes and failures in it. -/
def Remembers (one : M) (cs : List (RCall M)) (s : RState M D) : Prop :=
  s.model = lastGiven one (cs.map (·.model)) ∧ s.view = lastGiven one (cs.map (·.view)) ∧
  s.proj = lastGiven one (cs.map (·.proj))

theorem render_remembers {one : M} {cs : List (RCall M)} {s : RState M D}
    (h : Remembers one cs s) (c : RCall M) : Remembers one (cs ++ [c]) (render b s c).1 := by
  obtain ⟨h1, h2, h3, _⟩ := render_matrices_eq b s c
  obtain ⟨g1, g2, g3⟩ := h
  refine ⟨?_, ?_, ?_⟩
  · rw [h1, g1, List.map_append, List.map_cons, List.map_nil, lastGiven_snoc]
  · rw [h2, g2, List.map_append, List.map_cons, List.map_nil, lastGiven_snoc]
  · rw [h3, g3, List.map_append, List.map_cons, List.map_nil, lastGiven_snoc]

theorem render_none_remembers {one : M} {cs : List (RCall M)} {s : RState M D}
    (h : Remembers one cs s) (vp : Nat) :
    Remembers one cs (render b s ⟨vp, none, none, none⟩).1 := by
  obtain ⟨h1, h2, h3, _⟩ := render_matrices_eq b s ⟨vp, none, none, none⟩
  obtain ⟨g1, g2, g3⟩ := h
  exact ⟨h1.trans g1, h2.trans g2, h3.trans g3⟩

theorem renders_remember {one : M} {cs : List (RCall M)} (vps : List Nat) {s : RState M D}
    (h : Remembers one cs s) :
    Remembers one cs (vps.foldl (fun s vp => (render b s ⟨vp, none, none, none⟩).1) s) := by
  induction vps generalizing s with
  | nil => exact h
  | cons vp vps ih => exact ih (render_none_remembers b h vp)

theorem rrun_snoc (s : RState M D) (es : List (REvent M)) (e : REvent M) :
    rrun b s (es ++ [e]) = rstep b (rrun b s es) e := by simp [rrun]

theorem rrun_remembers (one : M) (tr : Option Nat) (es : List (REvent M)) :
    Remembers one (callsOf es) (rrun b (rinit one tr) es) := by
  induction es using List.reverseRecOn with
  | nil => exact ⟨rfl, rfl, rfl⟩
  | append_singleton es e ih =>
    rw [rrun_snoc]
    cases e with
    | render c =>
      have : callsOf (es ++ [.render c]) = callsOf es ++ [c] := by simp [callsOf]
      rw [this]
      exact render_remembers b ih c
    | resize cv =>
      have : callsOf (es ++ [.resize cv]) = callsOf es := by simp [callsOf]
      rw [this]
      exact renders_remember b _ ih

/-! #### Collections and handlers -/

/-- What is true of the collections, handlers and children at any time. -/
structure Wired (s : RState M D) : Prop where
  keys : dkeys s.collections = s.handlers
  nodup : s.handlers.Nodup
  children : s.children = s.handlers.flatMap
    (fun vp => if b.kind.scatters then [vp, vp] else [vp])

theorem render_collections (s : RState M D) (c : RCall M) :
    (render b s c).1.handlers =
        (ensureCollection b { storeMatrices b.mul s c with tracker := none } c.viewport).1.handlers ∧
    (render b s c).1.children =
        (ensureCollection b { storeMatrices b.mul s c with tracker := none } c.viewport).1.children ∧
    dkeys (render b s c).1.collections = dkeys
        (ensureCollection b { storeMatrices b.mul s c with tracker := none } c.viewport).1.collections
    := by
  unfold render
  dsimp only
  have hmem : ∀ s1 u, ensureCollection b { storeMatrices b.mul s c with tracker := none } c.viewport
      = (s1, Except.ok u) → dget s1.collections c.viewport ≠ none := by
    intro s1 u h1
    rcases ensure_spec b { storeMatrices b.mul s c with tracker := none } c.viewport with
      ⟨h, hn⟩ | ⟨⟨e, _, h⟩, _⟩ | ⟨_, _, h⟩
    · rw [h] at h1; cases h1; exact hn
    · rw [h] at h1; cases h1
    · rw [h] at h1; cases h1; simp
  generalize ensureCollection b { storeMatrices b.mul s c with tracker := none } c.viewport = r at *
  obtain ⟨s1, r⟩ := r
  cases r with
  | error e => exact ⟨rfl, rfl, rfl⟩
  | ok u =>
    have hmem := hmem s1 u rfl
    dsimp only
    cases s1.transform with
    | none => exact ⟨rfl, rfl, rfl⟩
    | some m =>
      dsimp only
      cases b.draw m c.viewport with
      | error e => exact ⟨rfl, rfl, rfl⟩
      | ok d =>
        refine ⟨rfl, rfl, ?_⟩
        dsimp only
        rw [dkeys_dset]
        cases hc : dget s1.collections c.viewport with
        | none => exact absurd hc hmem
        | some x => simp [dhas, hc]

theorem render_wired {s : RState M D} (h : Wired b s) (c : RCall M) :
    Wired b (render b s c).1 ∧
    ((render b s c).1.handlers = s.handlers ∧ (c.viewport ∈ s.handlers ∨ b.prepare ≠ .ok ()) ∨
      (render b s c).1.handlers = s.handlers ++ [c.viewport] ∧ c.viewport ∉ s.handlers ∧
        b.prepare = .ok ()) := by
  obtain ⟨e1, e2, e3⟩ := render_collections b s c
  have hiff : c.viewport ∈ s.handlers ↔ dget s.collections c.viewport ≠ none := by
    rw [← h.keys, mem_dkeys]
    cases dget s.collections c.viewport <;> simp
  rcases ensure_spec b { storeMatrices b.mul s c with tracker := none } c.viewport with
      ⟨h1, hn⟩ | ⟨⟨e, hp, h1⟩, hn⟩ | ⟨hp, hn, h1⟩
  · rw [h1] at e1 e2 e3
    dsimp only [storeMatrices] at e1 e2 e3 hn
    refine ⟨⟨?_, ?_, ?_⟩, .inl ⟨e1, .inl (hiff.2 hn)⟩⟩
    · rw [e3, e1]; exact h.keys
    · rw [e1]; exact h.nodup
    · rw [e2, e1]; exact h.children
  · rw [h1] at e1 e2 e3
    dsimp only [storeMatrices] at e1 e2 e3 hn
    refine ⟨⟨?_, ?_, ?_⟩, .inl ⟨e1, .inr (by rw [hp]; simp)⟩⟩
    · rw [e3, e1]; exact h.keys
    · rw [e1]; exact h.nodup
    · rw [e2, e1]; exact h.children
  · rw [h1] at e1 e2 e3
    dsimp only [storeMatrices] at e1 e2 e3 hn
    have hnm : c.viewport ∉ s.handlers := fun hm => hiff.1 hm hn
    refine ⟨⟨?_, ?_, ?_⟩, .inr ⟨e1, hnm, hp⟩⟩
    · rw [e3, e1, dset_of_not_mem _ _ _ hn, ← h.keys]; simp [dkeys]
    · rw [e1, List.nodup_append]
      refine ⟨h.nodup, by simp, ?_⟩
      intro a ha x hx
      rw [List.mem_singleton] at hx
      subst hx
      exact fun he => hnm (he ▸ ha)
    · rw [e2, e1, h.children, List.flatMap_append]; simp

theorem render_known_wired {s : RState M D} (h : Wired b s) {vp : Nat} (hv : vp ∈ s.handlers) :
    Wired b (render b s ⟨vp, none, none, none⟩).1 ∧
    (render b s ⟨vp, none, none, none⟩).1.handlers = s.handlers := by
  obtain ⟨h1, h2⟩ := render_wired b h ⟨vp, none, none, none⟩
  refine ⟨h1, ?_⟩
  rcases h2 with ⟨h2, _⟩ | ⟨_, h3, _⟩
  · exact h2
  · exact absurd hv h3

theorem renders_wired (vps : List Nat) {s : RState M D} (h : Wired b s)
    (hv : ∀ vp ∈ vps, vp ∈ s.handlers) :
    Wired b (vps.foldl (fun s vp => (render b s ⟨vp, none, none, none⟩).1) s) ∧
    (vps.foldl (fun s vp => (render b s ⟨vp, none, none, none⟩).1) s).handlers = s.handlers := by
  induction vps generalizing s with
  | nil => exact ⟨h, rfl⟩
  | cons vp vps ih =>
    obtain ⟨h1, h2⟩ := render_known_wired b h (hv vp (by simp))
    have := ih h1 (fun x hx => by rw [h2]; exact hv x (List.mem_cons_of_mem _ hx))
    exact ⟨this.1, this.2.trans h2⟩

theorem resize_wired {s : RState M D} (h : Wired b s) (cv : Nat) :
    Wired b (resize b s cv) ∧ (resize b s cv).handlers = s.handlers :=
  renders_wired b _ h (fun _ hx => (List.mem_filter.1 hx).1)

theorem rrun_wired (one : M) (tr : Option Nat) (es : List (REvent M)) :
    Wired b (rrun b (rinit one tr : RState M D) es) ∧
    (b.prepare = .ok () → ∀ vp, vp ∈ (rrun b (rinit one tr : RState M D) es).handlers ↔
      vp ∈ (callsOf es).map (·.viewport)) := by
  induction es using List.reverseRecOn with
  | nil => exact ⟨⟨rfl, by simp [rrun, rinit], rfl⟩, fun _ vp => by simp [rrun, rinit, callsOf]⟩
  | append_singleton es e ih =>
    rw [rrun_snoc]
    cases e with
    | render c =>
      have hcs : callsOf (es ++ [.render c]) = callsOf es ++ [c] := by simp [callsOf]
      obtain ⟨h1, h2⟩ := render_wired b ih.1 c
      refine ⟨h1, fun hp vp => ?_⟩
      rw [hcs, List.map_append, List.mem_append, ← ih.2 hp vp]
      simp only [rstep, List.map_cons, List.map_nil, List.mem_singleton]
      rcases h2 with ⟨h2, h3 | h3⟩ | ⟨h2, _, _⟩
      · rw [h2]
        exact ⟨.inl, fun h => h.elim id (fun h => h ▸ h3)⟩
      · exact absurd hp h3
      · rw [h2, List.mem_append, List.mem_singleton]
    | resize cv =>
      have hcs : callsOf (es ++ [.resize cv]) = callsOf es := by simp [callsOf]
      obtain ⟨h1, h2⟩ := resize_wired b ih.1 cv
      refine ⟨h1, fun hp vp => ?_⟩
      rw [hcs, ← ih.2 hp vp]
      simp only [rstep]
      rw [h2]

/-! #### Tracking -/

theorem render_tracker (s : RState M D) (c : RCall M) :
    (render b s c).2 = .ok () ∧ (render b s c).1.tracker = s.tracker ∨
    (∃ e, (render b s c).2 = .error e) ∧ (render b s c).1.tracker = none := by
  unfold render
  dsimp only
  have hk := (ensure_keeps b { storeMatrices b.mul s c with tracker := none } c.viewport).2.2.2.2
  generalize ensureCollection b { storeMatrices b.mul s c with tracker := none } c.viewport = r at *
  obtain ⟨s1, r⟩ := r
  cases r with
  | error e => exact .inr ⟨⟨e, rfl⟩, hk⟩
  | ok u =>
    dsimp only
    cases s1.transform with
    | none => exact .inl ⟨rfl, rfl⟩
    | some m =>
      dsimp only
      cases b.draw m c.viewport with
      | error e => exact .inr ⟨⟨e, rfl⟩, hk⟩
      | ok d => exact .inl ⟨rfl, rfl⟩

end rendering

end Verif
