import Verif.Spec.Errors
import Verif.Lemmas.Accepted
import Verif.Props.Recording
import Verif.Lemmas.Tracked
import Verif.Model.Foreign
import Verif.Model.Swizzle
import Verif.Model.Values
import Verif.Model.Viewport
import Verif.Model.Frames
import Verif.Model.Keys
import Verif.Lemmas.Api
import Verif.Lemmas.Values
/-! Lemmas on the exceptions of calls, keys and colormaps (C85, C86). -/

namespace Verif

theorem bound_of_bindArgs {sg : Sig} (hwf : sg.WF) {args : List Val} {kwargs b : Dict String Val}
    (hb : bindArgs sg args kwargs = .ok b) : IsBound sg args kwargs b := by
  have hB := bindArgs_ok hb
  refine ⟨hB.keys, fun k hk => ?_⟩
  rw [← hB.keys] at hk
  obtain ⟨v, hv⟩ := (mem_dkeys _ _).1 hk
  rw [hv]
  have := hB.vals _ (dget_mem hv)
  simp only [seenArg, givenArg] at this
  rw [← this, Option.or_assoc]

theorem accepts_of_bindArgs {sg : Sig} (hwf : sg.WF) {args : List Val} {kwargs b : Dict String Val}
    (hb : bindArgs sg args kwargs = .ok b) : sg.Accepts args kwargs := by
  have hB := bindArgs_ok hb
  refine ⟨hB.few, hB.known, fun k hk => ?_⟩
  have hkp := List.mem_of_mem_drop hk
  have h1 := (bound_of_bindArgs hwf hb).2 k hkp
  rw [← hB.keys] at hkp
  obtain ⟨v, hv⟩ := (mem_dkeys _ _).1 hkp
  rw [hv] at h1
  have hpos : dget (sg.params.zip args) k = none := by
    cases hz : dget (sg.params.zip args) k with
    | none => rfl
    | some x =>
      exfalso
      have hm := dget_mem hz
      obtain ⟨i, hi⟩ := List.mem_iff_getElem?.1 hm
      rw [List.getElem?_zip_eq_some] at hi
      obtain ⟨j, hj⟩ := List.mem_iff_getElem?.1 hk
      rw [List.getElem?_drop] at hj
      have hlt := (List.getElem?_eq_some_iff.1 hi.2).1
      have := (List.getElem?_inj (List.getElem?_eq_some_iff.1 hi.1).1 hwf.nodup).1 (hi.1.trans hj.symm)
      omega
  rw [hpos, Option.none_or] at h1
  cases hk : dget kwargs k with
  | some x => exact Or.inl ((mem_dkeys _ _).2 ⟨x, hk⟩)
  | none =>
    rw [hk, Option.none_or] at h1
    exact Or.inr ((mem_dkeys _ _).2 ⟨v, h1.symm⟩)

theorem mapM_of_all {α β : Type} {g : α → Option (α × β)} {l : List α}
    (h : ∀ k ∈ l, ∃ v, g k = some (k, v)) : ∃ l', l.mapM g = some l' := by
  induction l with
  | nil => exact ⟨[], rfl⟩
  | cons x l ih =>
    obtain ⟨v, hv⟩ := h x List.mem_cons_self
    obtain ⟨l', hl⟩ := ih (fun k hk => h k (List.mem_cons_of_mem _ hk))
    exact ⟨(x, v) :: l', by simp [List.mapM_cons, hv, hl]⟩

theorem bindArgs_of_accepts {sg : Sig} {args : List Val} {kwargs : Dict String Val}
    (h : sg.Accepts args kwargs) : ∃ b, bindArgs sg args kwargs = .ok b := by
  unfold bindArgs
  rw [if_neg (by have := h.few; omega), if_neg]
  · dsimp only
    have hall : ∀ k ∈ sg.params, ∃ v, (match dget (sg.params.zip args) k with
        | some v => some (k, v)
        | none => match dget kwargs k with
          | some v => some (k, v)
          | none => (dget sg.defaults k).map (fun v => (k, v))) = some (k, v) := by
      intro k hk
      cases hz : dget (sg.params.zip args) k with
      | some v => exact ⟨v, rfl⟩
      | none =>
        dsimp only
        have hkd : k ∈ sg.params.drop args.length := by
          obtain ⟨i, hi⟩ := List.mem_iff_getElem?.1 hk
          by_cases hlt : i < args.length
          · exfalso
            have hm : (k, args[i]) ∈ sg.params.zip args := by
              refine List.mem_iff_getElem?.2 ⟨i, ?_⟩
              rw [List.getElem?_zip_eq_some]
              exact ⟨hi, List.getElem?_eq_getElem hlt⟩
            have : k ∈ dkeys (sg.params.zip args) := List.mem_map.2 ⟨_, hm, rfl⟩
            obtain ⟨v, hv⟩ := (mem_dkeys _ _).1 this
            rw [hz] at hv
            cases hv
          · refine List.mem_iff_getElem?.2 ⟨i - args.length, ?_⟩
            rw [List.getElem?_drop]
            rw [← hi]
            congr 1
            omega
        rcases h.full k hkd with h1 | h1
        · obtain ⟨v, hv⟩ := (mem_dkeys _ _).1 h1
          exact ⟨v, by rw [hv]⟩
        · obtain ⟨v, hv⟩ := (mem_dkeys _ _).1 h1
          cases hkw : dget kwargs k with
          | some x => exact ⟨x, rfl⟩
          | none => exact ⟨v, by simp [hv]⟩
    obtain ⟨l, hl⟩ := mapM_of_all hall
    exact ⟨l, congrArg (fun m => Option.elim m (Except.error Err.typeError) Except.ok) hl⟩
  · simp only [List.any_eq_true, Bool.not_eq_true', not_exists, not_and]
    intro p hp
    have := h.known p.1 (List.mem_map.2 ⟨p, hp, rfl⟩)
    simpa using this

theorem bindArgs_error {sg : Sig} {args : List Val} {kwargs : Dict String Val} {e : Err}
    (h : bindArgs sg args kwargs = .error e) : e = .typeError := by
  unfold bindArgs at h
  split at h
  · cases h; rfl
  · split at h
    · cases h; rfl
    · dsimp only at h
      generalize (List.mapM (m := Option) _ sg.params) = m at h
      cases m with
      | none => cases h; rfl
      | some l => cases h

theorem subGo_fits (ks : List AxKey) : ∀ (off : Int) (sh : List Nat) (st : List Int),
    sh.length = st.length →
    ((∃ T, subGo off ks sh st = .ok T) ↔ KeyFits ks sh) ∧
    (∀ e, subGo off ks sh st = .error e → e = .indexError) ∧
    (∀ T, subGo off ks sh st = .ok T → T.shape.length = T.strides.length) := by
  induction ks with
  | nil =>
    intro off sh st h
    refine ⟨⟨fun _ => trivial, fun _ => ⟨_, rfl⟩⟩, fun e he => by simp [subGo] at he, fun T hT => ?_⟩
    simp only [subGo, Except.ok.injEq] at hT
    subst hT
    exact h
  | cons k ks ih =>
    intro off sh st h
    match sh, st, h with
    | [], [], _ => cases k <;> simp [subGo, KeyFits]
    | n :: sh, s :: st, h =>
      have h' : sh.length = st.length := by simpa using h
      cases k with
      | «at» i =>
        simp only [subGo, KeyFits]
        by_cases hc : -(n : Int) ≤ i ∧ i < n
        · rw [if_pos hc]
          obtain ⟨h1, h2, h3⟩ := ih (off + i % n * s) sh st h'
          exact ⟨h1.trans ⟨fun hk => ⟨hc.1, hc.2, hk⟩, fun hk => hk.2.2⟩, h2, h3⟩
        · rw [if_neg hc]
          refine ⟨⟨fun ⟨T, hT⟩ => (by cases hT), fun hk => (hc ⟨hk.1, hk.2.1⟩).elim⟩, fun e he => ?_, fun T hT => (by cases hT)⟩
          cases he; rfl
      | range a c d =>
        simp only [subGo, KeyFits]
        by_cases h0 : c = 0
        · rw [if_pos h0]
          obtain ⟨h1, h2, h3⟩ := ih off sh st h'
          cases hg : subGo off ks sh st with
          | ok L =>
            refine ⟨⟨fun _ => ⟨fun j hj => by omega, h1.1 ⟨L, hg⟩⟩, fun _ => ⟨_, rfl⟩⟩, fun e he => (by cases he), fun T hT => ?_⟩
            cases hT
            simp [h3 L hg]
          | error e =>
            refine ⟨⟨fun ⟨T, hT⟩ => (by cases hT), fun hk => ?_⟩, fun e' he => ?_, fun T hT => (by cases hT)⟩
            · obtain ⟨T, hT⟩ := h1.2 hk.2
              rw [hg] at hT; cases hT
            · cases he; exact h2 _ hg
        · rw [if_neg h0]
          have hiff : (0 ≤ a ∧ a < n ∧ 0 ≤ a + ((c : Int) - 1) * d ∧ a + ((c : Int) - 1) * d < n) ↔
              ∀ j : Nat, j < c → 0 ≤ a + j * d ∧ a + j * d < n := by
            constructor
            · intro ⟨p1, p2, p3, p4⟩ j hj
              have hj' : (j : Int) ≤ c - 1 := by omega
              have hj0 : (0 : Int) ≤ j := by omega
              by_cases hd : 0 ≤ d
              · have q1 : 0 ≤ j * d := Int.mul_nonneg hj0 hd
                have q2 : j * d ≤ (c - 1) * d := Int.mul_le_mul_of_nonneg_right hj' hd
                omega
              · have q1 : j * d ≤ 0 := Int.mul_nonpos_of_nonneg_of_nonpos hj0 (by omega)
                have q2 : (c - 1) * d ≤ j * d := Int.mul_le_mul_of_nonpos_right hj' (by omega)
                omega
            · intro hall
              have p0 := hall 0 (by omega)
              have p1 := hall (c - 1) (by omega)
              have : ((c - 1 : Nat) : Int) = c - 1 := by omega
              rw [this] at p1
              simp only [Nat.cast_zero, Int.zero_mul, Int.add_zero] at p0
              exact ⟨p0.1, p0.2, p1.1, p1.2⟩
          by_cases hc : 0 ≤ a ∧ a < n ∧ 0 ≤ a + ((c : Int) - 1) * d ∧ a + ((c : Int) - 1) * d < n
          · rw [if_pos hc]
            obtain ⟨h1, h2, h3⟩ := ih (off + a * s) sh st h'
            cases hg : subGo (off + a * s) ks sh st with
            | ok L =>
              refine ⟨⟨fun _ => ⟨hiff.1 hc, h1.1 ⟨L, hg⟩⟩, fun _ => ⟨_, rfl⟩⟩, fun e he => (by cases he), fun T hT => ?_⟩
              cases hT
              simp [h3 L hg]
            | error e =>
              refine ⟨⟨fun ⟨T, hT⟩ => (by cases hT), fun hk => ?_⟩, fun e' he => ?_, fun T hT => (by cases hT)⟩
              · obtain ⟨T, hT⟩ := h1.2 hk.2
                rw [hg] at hT; cases hT
              · cases he; exact h2 _ hg
          · rw [if_neg hc]
            refine ⟨⟨fun ⟨T, hT⟩ => (by cases hT), fun hk => (hc (hiff.2 hk.1)).elim⟩, fun e he => ?_, fun T hT => (by cases hT)⟩
            cases he; rfl

theorem sub_fits {L : Layout} (hL : L.shape.length = L.strides.length) (key : List AxKey) :
    (KeyFits key L.shape → ∃ T, L.sub key = .ok T ∧ T.shape.length = T.strides.length) ∧
    (¬ KeyFits key L.shape → L.sub key = .error .indexError) := by
  obtain ⟨h1, h2, h3⟩ := subGo_fits key L.off L.shape L.strides hL
  refine ⟨fun hk => ?_, fun hk => ?_⟩
  · obtain ⟨T, hT⟩ := h1.2 hk
    exact ⟨T, hT, h3 T hT⟩
  · cases hs : L.sub key with
    | ok T => exact (hk (h1.1 ⟨T, hs⟩)).elim
    | error e => rw [h2 e hs]

theorem cStrides_length (item : Nat) (sh : List Nat) : (cStrides item sh).length = sh.length := by
  induction sh with
  | nil => rfl
  | cons n sh ih => simp [cStrides, ih]

/-- As many strides as axes, for the array and its views. -/
def ArrLens (s : ArrState) : Prop := ∀ r L, s.layout r = some L → L.shape.length = L.strides.length

theorem arrLens_of_views {s : ArrState} (h : ∀ v ∈ s.views, v.layout.shape.length = v.layout.strides.length) :
    ArrLens s := by
  intro r L hL
  cases r with
  | owner =>
    simp only [ArrState.layout, Option.some.injEq] at hL
    subst hL
    simp [ArrState.owner, cStrides_length]
  | view i =>
    simp only [ArrState.layout, Option.map_eq_some_iff] at hL
    obtain ⟨v, hv, rfl⟩ := hL
    exact h v (List.mem_of_getElem? hv)

theorem arrStep_views (s : ArrState) (op : ArrOp)
    (h : ∀ v ∈ s.views, v.layout.shape.length = v.layout.strides.length) :
    ∀ v ∈ (arrStep s op).1.views, v.layout.shape.length = v.layout.strides.length := by
  cases op with
  | view src key =>
    simp only [arrStep]
    cases hL : s.layout src with
    | none => exact h
    | some L =>
      dsimp only
      cases hT : L.sub key with
      | error e => exact h
      | ok T =>
        dsimp only
        split
        · exact h
        · intro v hv
          rcases List.mem_append.1 hv with hv | hv
          · exact h v hv
          · rw [List.mem_singleton.1 hv]
            exact (subGo_fits key L.off L.shape L.strides (arrLens_of_views h src L hL)).2.2 T hT
  | write dst key new =>
    simp only [arrStep]
    cases hL : s.layout dst with
    | none => exact h
    | some L =>
      dsimp only
      cases hT : L.sub key with
      | error e => exact h
      | ok T =>
        dsimp only
        split
        · split <;> exact h
        · exact h
  | iadd dst new =>
    simp only [arrStep]
    cases hL : s.layout dst with
    | none => exact h
    | some L => dsimp only; split <;> exact h
  | idiv dst new =>
    simp only [arrStep]
    cases hL : s.layout dst with
    | none => exact h
    | some L => dsimp only; split <;> exact h
  | clear => exact h

theorem arrRun_lens (item : Nat) (shape : List Nat) (tr : Bool) (mem : List Nat) (ops : List ArrOp) :
    ArrLens (arrRun (arrInit item shape tr mem) ops) := by
  apply arrLens_of_views
  have : ∀ (s : ArrState), (∀ v ∈ s.views, v.layout.shape.length = v.layout.strides.length) →
      ∀ v ∈ (arrRun s ops).views, v.layout.shape.length = v.layout.strides.length := by
    induction ops with
    | nil => exact fun s h => h
    | cons op ops ih => exact fun s h => ih _ (arrStep_views s op h)
  exact this _ (by simp [arrInit])

theorem boundOr_low {xs : List ℚ} {lo : Option ℚ} {a : ℚ} (h : IsLow xs lo a) :
    boundOr lo (Except.bind (.ok xs) listMin) = .ok a := by
  rcases h with ⟨⟨x, rfl, hx⟩, h⟩ | ⟨hn, hm⟩
  · cases h
    simp [boundOr, hx]
  · have hmin : Except.bind (.ok xs) listMin = .ok a := listMin_spec hm
    cases lo with
    | none => exact hmin
    | some g =>
      simp only [boundOr]
      rw [if_pos (by by_contra h; exact hn ⟨g, rfl, h⟩)]
      exact hmin

theorem boundOr_high {xs : List ℚ} {hi : Option ℚ} {b : ℚ} (h : IsHigh xs hi b) :
    boundOr hi (Except.bind (.ok xs) listMax) = .ok b := by
  rcases h with ⟨⟨x, rfl, hx⟩, h⟩ | ⟨hn, hm⟩
  · cases h
    simp [boundOr, hx]
  · have hmax : Except.bind (.ok xs) listMax = .ok b := listMax_spec hm
    cases hi with
    | none => exact hmax
    | some g =>
      simp only [boundOr]
      rw [if_pos (by by_contra h; exact hn ⟨g, rfl, h⟩)]
      exact hmax

theorem boundOr_missing {q : Option ℚ} (h : ¬ BoundGiven q) (d : Except Err ℚ) : boundOr q d = d := by
  cases q with
  | none => rfl
  | some g =>
    simp only [boundOr]
    rw [if_pos (by by_contra h'; exact h ⟨g, rfl, h'⟩)]

theorem boundOr_given {q : Option ℚ} (h : BoundGiven q) (d : Except Err ℚ) : ∃ a, boundOr q d = .ok a := by
  obtain ⟨x, rfl, hx⟩ := h
  exact ⟨x, by simp [boundOr, hx]⟩

end Verif
