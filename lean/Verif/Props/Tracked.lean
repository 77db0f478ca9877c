import Verif.Lemmas.Tracked
/-
C36 and C37: tracked arrays.
-/

namespace Verif

/-! ### C36 -/

theorem marks_run {s : ArrState} {ops : List ArrOp} (ht : s.tracker = false) (hv : ViewsUp s)
    (hm : Along Marks s ops) :
    ViewsUp (arrRun s ops) ∧ (arrRun s ops).tracker = false ∧
    (ArrOp.clear ∉ ops → ∀ p : Nat, (Reports s.dirty p → Reports (arrRun s ops).dirty p) ∧
      ((arrRun s ops).mem[p]? ≠ s.mem[p]? → Reports (arrRun s ops).dirty p)) := by
  induction ops generalizing s with
  | nil => exact ⟨hv, ht, fun _ p => ⟨id, fun h => absurd rfl h⟩⟩
  | cons op ops ih =>
    obtain ⟨h1, h2, h3⟩ := arrStep_marks ht hv hm.1
    obtain ⟨i1, i2, i3⟩ := ih h2 h1 hm.2
    refine ⟨i1, i2, fun hc p => ?_⟩
    rw [List.mem_cons, not_or] at hc
    have hs := h3 (fun h => hc.1 h.symm) p
    have hr := i3 hc.2 p
    refine ⟨fun h => hr.1 (hs.1 h), fun h => ?_⟩
    by_cases he : (arrStep s op).1.mem[p]? = s.mem[p]?
    · exact hr.2 (by rw [he]; exact h)
    · exact hr.1 (hs.2 he)

/-- After any history, every byte that is not what it was at the last `clear` is in the region
reported. Missing: slices that go backwards, single numbers assigned through views, and the
operators in place other than `+=`, `-=` and `*=`: see `dirty_covers_fails`. -/
theorem dirty_covers_partial {item : Nat} {shape mem : List Nat} {before after : List ArrOp}
    (h : Along Marks (arrInit item shape false mem) (before ++ [.clear] ++ after))
    (hc : ArrOp.clear ∉ after) {p : Nat}
    (hp : (arrRun (arrInit item shape false mem) (before ++ [.clear] ++ after)).mem[p]? ≠
      (arrRun (arrInit item shape false mem) (before ++ [.clear])).mem[p]?) :
    Reports (arrRun (arrInit item shape false mem) (before ++ [.clear] ++ after)).dirty p := by
  rw [along_append] at h
  obtain ⟨h1, h2, _⟩ := marks_run rfl (by intro v hv; simp [arrInit] at hv) h.1
  have := marks_run h2 h1 h.2
  unfold arrRun at *
  rw [List.foldl_append] at hp ⊢
  exact (this.2.2 hc p).2 hp

/-- Before any `clear` the whole array is reported. -/
theorem dirty_at_first {item : Nat} {shape mem : List Nat} {ops : List ArrOp}
    (h : Along Marks (arrInit item shape false mem) ops) (hc : ArrOp.clear ∉ ops) {p : Nat}
    (hp : p < shape.prod * item) : Reports (arrRun (arrInit item shape false mem) ops).dirty p := by
  have := marks_run rfl (by intro v hv; simp [arrInit] at hv) h
  exact (this.2.2 hc p).1 ⟨0, _, rfl, by omega, by omega⟩

/-- An assignment to forward slices after a `clear` reports the smallest region that holds the
bytes it modifies; when they follow one another, exactly these. -/
theorem dirty_exact {s : ArrState} {dst : ArrRef} {key : List AxKey} {new : List Nat}
    {L T : Layout} (hd : s.dirty = none) (ht : s.tracker = false) (hl : s.layout dst = some L)
    (hs : L.sub key = .ok T) (hT : T.strides.length = T.shape.length ∧ ∀ n ∈ T.shape, 0 < n)
    (hne : T.shape ≠ []) (hi : 0 < s.item) (hn : new.length = (T.bytes s.item).length) :
    (∃ a b, (arrStep s (.write dst key new)).1.dirty = some (a, b) ∧
      a ∈ T.bytes s.item ∧ b - 1 ∈ T.bytes s.item) ∧
    (T.strides = cStrides s.item T.shape →
      ∀ p : Nat, Reports (arrStep s (.write dst key new)).1.dirty p ↔
        (p : Int) ∈ T.bytes s.item) := by
  have hres : (arrStep s (.write dst key new)).1.dirty = some (T.extents s.item) := by
    unfold arrStep
    simp only [hl, hs, hn, if_true, ht, Bool.false_eq_true, if_false, hd, updDirty, markOf, hne]
  have hfirst : ∀ (sh : List Nat) (st : List Int) (off : Int), st.length = sh.length →
      (∀ n ∈ sh, 0 < n) → off ∈ elemsGo off sh st ∧ off + spanGo sh st ∈ elemsGo off sh st := by
    intro sh
    induction sh with
    | nil => intro st off _ _; cases st <;> simp [elemsGo, spanGo]
    | cons n sh ih =>
      intro st off hlen hpos
      cases st with
      | nil => simp at hlen
      | cons t st =>
        have hn0 := hpos n (by simp)
        have ih' := fun off => ih st off (by simpa using hlen)
          (fun m hm => hpos m (List.mem_cons_of_mem _ hm))
        simp only [elemsGo, List.mem_flatMap, List.mem_range, spanGo]
        refine ⟨⟨0, hn0, ?_⟩, ⟨n - 1, by omega, ?_⟩⟩
        · simpa using (ih' off).1
        · have := (ih' (off + ((n - 1 : Nat) : Int) * t)).2
          have he : (((n - 1 : Nat) : Int)) = (n : Int) - 1 := by omega
          rw [he] at this ⊢
          rw [← add_assoc]
          exact this
  have hfl := hfirst T.shape T.strides T.off hT.1 hT.2
  refine ⟨⟨_, _, hres, ?_, ?_⟩, ?_⟩
  · simp only [Layout.bytes, List.mem_flatMap, List.mem_map, List.mem_range]
    exact ⟨T.off, hfl.1, 0, hi, by simp⟩
  · simp only [Layout.bytes, List.mem_flatMap, List.mem_map, List.mem_range]
    exact ⟨_, hfl.2, s.item - 1, by omega, by omega⟩
  · intro hcs p
    have hspan : ∀ (sh : List Nat), (∀ n ∈ sh, 0 < n) →
        spanGo sh (cStrides s.item sh) + s.item = ((sh.prod * s.item : Nat) : Int) := by
      intro sh
      induction sh with
      | nil => intro _; simp [spanGo, cStrides]
      | cons n sh ih =>
        intro hpos
        have := ih (fun m hm => hpos m (List.mem_cons_of_mem _ hm))
        simp only [spanGo, cStrides, List.prod_cons]
        rw [add_assoc, this]
        push_cast
        ring
    rw [hres]
    have hmem := mem_bytes_cStrides hi T.shape T.off p
    have hTe : Layout.mk T.off T.shape (cStrides s.item T.shape) = T := by
      rw [← hcs]
    rw [hTe] at hmem
    rw [hmem, ← hspan T.shape hT.2, ← hcs]
    constructor
    · rintro ⟨a, b, he, h1, h2⟩
      simp only [Option.some.injEq, Layout.extents, Prod.mk.injEq] at he
      omega
    · rintro ⟨h1, h2⟩
      exact ⟨_, _, rfl, h1, h2⟩

/-- A 3 × 2 array of 4 bytes items: its last row is assigned through a view, then added to, and two
items of a column are assigned. -/
def trackedDemo : List ArrOp :=
  [.view .owner [.range 1 2 1], .write (.view 0) [.at 1] [1, 2, 3, 4, 5, 6, 7, 8],
   .write .owner [.range 1 2 1, .at 0] [9, 9, 9, 9, 8, 8, 8, 8]]

example : Along Marks (arrInit 4 [3, 2] false (List.replicate 24 0))
      ([.iadd .owner (List.replicate 24 1)] ++ [.clear] ++ trackedDemo) ∧
    (arrRun (arrInit 4 [3, 2] false (List.replicate 24 0))
      ([.iadd .owner (List.replicate 24 1)] ++ [.clear] ++ trackedDemo)).dirty = some (8, 24) ∧
    (arrRun (arrInit 4 [3, 2] false (List.replicate 24 0))
      ([.iadd .owner (List.replicate 24 1)] ++ [.clear] ++ trackedDemo)).mem =
      [1, 1, 1, 1, 1, 1, 1, 1, 9, 9, 9, 9, 1, 1, 1, 1, 8, 8, 8, 8, 5, 6, 7, 8] := by
  decide +kernel

/-- The row of the demo is reported exactly. -/
example : (Layout.mk 0 [3, 2] (cStrides 4 [3, 2])).sub [.at 1] = .ok ⟨8, [2], [4]⟩ ∧
    [4] = cStrides 4 [2] ∧ (arrStep { arrInit 4 [3, 2] false (List.replicate 24 0) with dirty := none }
      (.write .owner [.at 1] (List.replicate 8 1))).1.dirty = some (8, 16) := by decide +kernel

/-- What is modified and not reported: the items of a reversed slice but the last; a number
assigned through a view, the region reported being elsewhere; and all that `/=` modifies. -/
theorem dirty_covers_fails :
    -- Z = tracked(4), of 1 byte items; Z.clear(); Z[::-1] = 1, 2, 3, 4
    ((arrRun (arrInit 1 [4] false [0, 0, 0, 0])
        [.clear, .write .owner [.range 3 4 (-1)] [1, 2, 3, 4]]).mem = [4, 3, 2, 1] ∧
      ¬ Reports (arrRun (arrInit 1 [4] false [0, 0, 0, 0])
        [.clear, .write .owner [.range 3 4 (-1)] [1, 2, 3, 4]]).dirty 0) ∧
    -- V = Z[2:]; Z.clear(); V[1] = 5
    ((arrRun (arrInit 1 [4] false [0, 0, 0, 0])
        [.view .owner [.range 2 2 1], .clear, .write (.view 0) [.at 1] [5]]).mem = [0, 0, 0, 5] ∧
      (arrRun (arrInit 1 [4] false [0, 0, 0, 0])
        [.view .owner [.range 2 2 1], .clear, .write (.view 0) [.at 1] [5]]).dirty =
          some (1, 2)) ∧
    -- Z.clear(); Z /= 2
    ((arrRun (arrInit 1 [4] false [8, 8, 8, 8]) [.clear, .idiv .owner [4, 4, 4, 4]]).mem =
        [4, 4, 4, 4] ∧
      (arrRun (arrInit 1 [4] false [8, 8, 8, 8]) [.clear, .idiv .owner [4, 4, 4, 4]]).dirty =
        none) := by
  refine ⟨⟨by decide +kernel, ?_⟩, by decide +kernel, by decide +kernel⟩
  rintro ⟨a, b, h, h1, h2⟩
  have : (arrRun (arrInit 1 [4] false [0, 0, 0, 0])
    [.clear, .write .owner [.range 3 4 (-1)] [1, 2, 3, 4]]).dirty = some (3, 1) := by
    decide +kernel
  rw [this] at h
  simp only [Option.some.injEq, Prod.mk.injEq] at h
  omega

/-! ### C37 -/

/-- The tracker holds the array, and what views tell it holds their bytes. -/
def Follows (s : ArrState) : Prop :=
  s.tracker = true ∧ s.mem.length = s.shape.prod * s.item ∧ s.mirror = s.mem ∧
  DirtyNonneg s.dirty ∧
  ∀ v ∈ s.views, v.layout.Low ∧ 0 ≤ v.own.1 ∧ ∀ p : Nat, p < s.mem.length → (p : Int) ∈ v.layout.bytes s.item →
    v.own.1 ≤ (p : Int) ∧ (p : Int) < v.own.2

theorem follows_step {s : ArrState} {op : ArrOp} (h : Follows s) (ht : Tells s op) :
    Follows (arrStep s op).1 := by
  obtain ⟨htr, hlen, hmi, hdn, hvs⟩ := h
  cases op with
  | clear => exact ⟨htr, hlen, hmi, fun a b h => (by cases h), hvs⟩
  | iadd dst new => exact ht.elim
  | idiv dst new => exact ht.elim
  | view src key =>
    unfold arrStep
    simp only
    cases hl : s.layout src with
    | none => exact ⟨htr, hlen, hmi, hdn, hvs⟩
    | some L =>
      simp only
      cases hs : L.sub key with
      | error e => exact ⟨htr, hlen, hmi, hdn, hvs⟩
      | ok T =>
        simp only
        split
        · exact ⟨htr, hlen, hmi, hdn, hvs⟩
        · refine ⟨htr, hlen, hmi, hdn, ?_⟩
          intro v hvm
          simp only [List.mem_append, List.mem_singleton] at hvm
          rcases hvm with hvm | rfl
          · exact hvs v hvm
          · cases src with
            | owner =>
              have hlow : L.Low := by
                simp only [ArrState.layout, Option.some.injEq] at hl
                subst hl
                exact owner_low s
              refine ⟨sub_low hs hlow, Int.le_refl 0, fun p hp _ => ⟨by simp only [ArrState.extOf]; omega, ?_⟩⟩
              simp only [ArrState.extOf] at hp ⊢
              omega
            | view i =>
              have hup : L.Up := ht L (by rw [hl]; rfl)
              have hlow : L.Low := by
                unfold Layout.Low
                rw [lowGo_up _ _ hup.2]
                simpa using hup.1
              exact ⟨sub_low hs hlow, hup.1, fun p _ hp => bytes_cover hup.2 (sub_bytes s.item hs p hp)⟩
  | write dst key new =>
    unfold arrStep
    simp only
    cases hl : s.layout dst with
    | none => exact ⟨htr, hlen, hmi, hdn, hvs⟩
    | some L =>
      simp only
      cases hs : L.sub key with
      | error e => exact ⟨htr, hlen, hmi, hdn, hvs⟩
      | ok T =>
        have hlow : L.Low := by
          cases dst with
          | owner =>
            simp only [ArrState.layout, Option.some.injEq] at hl
            subst hl
            exact owner_low s
          | view i =>
            simp only [ArrState.layout, Option.map_eq_some_iff] at hl
            obtain ⟨v, hv, rfl⟩ := hl
            exact (hvs v (List.mem_of_getElem? hv)).1
        have hdn' : DirtyNonneg (updDirty s.dirty (markOf s.item L key T)) :=
          dirtyNonneg_upd hdn (mark_low hs hlow)
        simp only
        split
        · have hlen' : (writeBytes s.mem (T.bytes s.item) new).length = s.mem.length :=
            writeBytes_length _ _ _
          simp only [htr]
          have hchg : ∀ p : Nat, (writeBytes s.mem (T.bytes s.item) new)[p]? ≠ s.mirror[p]? →
              (p : Int) ∈ T.bytes s.item := by
            intro p hp
            by_contra hc
            exact hp (by rw [hmi]; exact writeBytes_getElem? hc)
          refine ⟨rfl, by rw [hlen', hlen], ?_, fun a b h => (by cases h), ?_⟩
          · cases dst with
            | owner =>
              obtain ⟨iv, hiv⟩ : ∃ iv, updDirty s.dirty (markOf s.item L key T) = some iv := by
                unfold updDirty; split <;> exact ⟨_, rfl⟩
              simp only [ArrState.layout, Option.some.injEq] at hl
              subst hl
              have hT := sub_up hs (owner_up s) ht
              simp only [hiv, Option.getD_some]
              refine mirrorSet_eq (by rw [hlen', hmi]) (hdn' iv.1 iv.2 hiv) ?_
              intro p _ hp
              obtain ⟨a, b, hab, h1, h2⟩ := reports_upd_right (d := s.dirty)
                (mark_cover hs hT (fun _ => ⟨rfl, rfl⟩) (hchg p hp))
              rw [hiv] at hab
              simp only [Option.some.injEq] at hab
              subst hab
              exact ⟨h1, h2⟩
            | view i =>
              simp only [ArrState.layout, Option.map_eq_some_iff] at hl
              obtain ⟨v, hv, rfl⟩ := hl
              obtain ⟨_, hv0, hvc⟩ := hvs v (List.mem_of_getElem? hv)
              have ho : s.ownOf i = v.own := by simp [ArrState.ownOf, hv]
              have ho' : ArrState.ownOf { s with
                dirty := updDirty s.dirty (markOf s.item v.layout key T) } i = v.own := by
                simp [ArrState.ownOf, hv]
              simp only [ho]
              refine mirrorSet_eq (by rw [hlen', hmi]) hv0 ?_
              intro p hpl hp
              rw [hlen'] at hpl
              exact hvc p hpl (sub_bytes s.item hs p (hchg p hp))
          · intro v hv
            obtain ⟨h1, h2, h3⟩ := hvs v hv
            exact ⟨h1, h2, fun p hp => h3 p (by rw [← hlen']; exact hp)⟩
        · exact ⟨htr, hlen, hmi, hdn', hvs⟩

theorem follows_run {s : ArrState} {ops : List ArrOp} (h : Follows s) (ht : Along Tells s ops) :
    Follows (arrRun s ops) := by
  induction ops generalizing s with
  | nil => exact h
  | cons op ops ih => exact ih (follows_step h ht.1) ht.2

/-- After every operation the tracker holds the bytes of the array, through the array and its
views, nested views included, for all shapes. Missing: operators in place, slices that go
backwards, views of views that go backwards: see `mirror_follows_fails`. -/
theorem mirror_follows_partial {item : Nat} {shape mem : List Nat} {ops : List ArrOp}
    (hm : mem.length = shape.prod * item) (h : Along Tells (arrInit item shape true mem) ops) :
    (arrRun (arrInit item shape true mem) ops).mirror =
      (arrRun (arrInit item shape true mem) ops).mem := by
  have h0 : Follows (arrInit item shape true mem) := by
    refine ⟨rfl, hm, rfl, ?_, by intro v hv; simp [arrInit] at hv⟩
    intro a b he
    simp only [arrInit, Option.some.injEq, Prod.mk.injEq] at he
    omega
  exact (follows_run h0 h).2.2.1

example : Along Tells (arrInit 4 [3, 2] true (List.replicate 24 0))
      (trackedDemo ++ [.view (.view 0) [.range 0 2 1, .at 1],
        .write (.view 1) [.at (-1)] [7, 7, 7, 7], .view .owner [.range 2 3 (-1)],
        .write (.view 2) [.at 0, .at 0] [6, 6, 6, 6]]) ∧
    (arrRun (arrInit 4 [3, 2] true (List.replicate 24 0))
      (trackedDemo ++ [.view (.view 0) [.range 0 2 1, .at 1],
        .write (.view 1) [.at (-1)] [7, 7, 7, 7], .view .owner [.range 2 3 (-1)],
        .write (.view 2) [.at 0, .at 0] [6, 6, 6, 6]])).mirror =
      [0, 0, 0, 0, 0, 0, 0, 0, 9, 9, 9, 9, 0, 0, 0, 0, 6, 6, 6, 6, 7, 7, 7, 7] := by
  decide +kernel

/-- The tracker misses no byte the region does not report. -/
def Lags (s : ArrState) : Prop :=
  s.tracker = true ∧ ViewsUp s ∧ s.mirror.length = s.mem.length ∧ DirtyNonneg s.dirty ∧
  ∀ p : Nat, s.mem[p]? ≠ s.mirror[p]? → Reports s.dirty p

theorem lags_step {s : ArrState} {op : ArrOp} (h : Lags s) (hg : Gathers op) :
    Lags (arrStep s op).1 ∧ (∀ key new, op = .write .owner key new →
      (arrStep s op).2 = none → (arrStep s op).1.mirror = (arrStep s op).1.mem) := by
  obtain ⟨htr, hvs, hlen, hdn, hrep⟩ := h
  cases op with
  | clear => exact hg.elim
  | idiv dst new => exact hg.elim
  | view src key =>
    refine ⟨?_, fun _ _ h => (by cases h)⟩
    unfold arrStep
    simp only
    cases hl : s.layout src with
    | none => exact ⟨htr, hvs, hlen, hdn, hrep⟩
    | some L =>
      simp only
      cases hs : L.sub key with
      | error e => exact ⟨htr, hvs, hlen, hdn, hrep⟩
      | ok T =>
        simp only
        split
        · exact ⟨htr, hvs, hlen, hdn, hrep⟩
        · refine ⟨htr, ?_, hlen, hdn, hrep⟩
          intro v hvm
          simp only [List.mem_append, List.mem_singleton] at hvm
          rcases hvm with hvm | rfl
          · exact hvs v hvm
          · exact sub_up hs (layout_up hvs hl) hg
  | iadd dst new =>
    refine ⟨?_, fun _ _ h => (by cases h)⟩
    unfold arrStep
    simp only
    cases hl : s.layout dst with
    | none => exact ⟨htr, hvs, hlen, hdn, hrep⟩
    | some L =>
      have hup := layout_up hvs hl
      simp only
      generalize hiv : s.extOf dst L = iv
      have hiv0 : 0 ≤ iv.1 := by
        cases dst with
        | owner => rw [← hiv]; exact Int.le_refl 0
        | view i => rw [← hiv]; exact hup.1
      have hivc : ∀ p ∈ L.bytes s.item, iv.1 ≤ p ∧ p < iv.2 := by
        intro p hp
        cases dst with
        | owner =>
          simp only [ArrState.layout, Option.some.injEq] at hl
          subst hl
          rw [← hiv]; exact owner_bytes hp
        | view i => rw [← hiv]; exact bytes_cover hup.2 hp
      split
      · refine ⟨htr, hvs, by rw [writeBytes_length]; exact hlen, dirtyNonneg_upd hdn hiv0, ?_⟩
        intro p hp
        by_cases hc : (p : Int) ∈ L.bytes s.item
        · exact reports_upd_right (hivc p hc)
        · refine reports_upd_left (hrep p ?_)
          simp only at hp
          rw [writeBytes_getElem? hc] at hp
          exact hp
      · exact ⟨htr, hvs, hlen, dirtyNonneg_upd hdn hiv0, fun p hp => reports_upd_left (hrep p hp)⟩
  | write dst key new =>
    cases dst with
    | view i => exact hg.elim
    | owner =>
      unfold arrStep
      simp only [ArrState.layout]
      cases hs : s.owner.sub key with
      | error e => exact ⟨⟨htr, hvs, hlen, hdn, hrep⟩, fun _ _ _ h => (by cases h)⟩
      | ok T =>
        have hT := sub_up hs (owner_up s) hg
        have hdn' : DirtyNonneg (updDirty s.dirty (markOf s.item s.owner key T)) :=
          dirtyNonneg_upd hdn (mark_low hs (owner_low s))
        simp only
        split
        · simp only [htr]
          obtain ⟨iv, hiv⟩ : ∃ iv, updDirty s.dirty (markOf s.item s.owner key T) = some iv := by
            unfold updDirty; split <;> exact ⟨_, rfl⟩
          have heq : mirrorSet s.mirror iv.1 (pySlice
              (writeBytes s.mem (T.bytes s.item) new) iv.1 iv.2) =
              writeBytes s.mem (T.bytes s.item) new := by
            refine mirrorSet_eq (by rw [writeBytes_length]; exact hlen) (hdn' iv.1 iv.2 hiv) ?_
            intro p _ hp
            have : Reports (updDirty s.dirty (markOf s.item s.owner key T)) p := by
              by_cases hc : (p : Int) ∈ T.bytes s.item
              · exact reports_upd_right (mark_cover hs hT (fun _ => ⟨rfl, rfl⟩) hc)
              · refine reports_upd_left (hrep p ?_)
                rw [writeBytes_getElem? hc] at hp
                exact hp
            obtain ⟨a, b, hab, h1, h2⟩ := this
            rw [hiv] at hab
            simp only [Option.some.injEq] at hab
            subst hab
            exact ⟨h1, h2⟩
          simp only [hiv, Option.getD_some, heq]
          exact ⟨⟨rfl, hvs, rfl, fun a b h => (by cases h), fun p hp => absurd rfl hp⟩,
            fun _ _ _ _ => trivial⟩
        · exact ⟨⟨htr, hvs, hlen, hdn', fun p hp => reports_upd_left (hrep p hp)⟩,
            fun _ _ _ h => (by cases h)⟩

/-- What operators in place have modified, through the array or its views, is told with the next
assignment through the array itself. -/
theorem mirror_catches_up {item : Nat} {shape mem : List Nat} {ops : List ArrOp} {key : List AxKey}
    {new : List Nat} {s' : ArrState} (h : ∀ op ∈ ops, Gathers op) (hk : Forward key)
    (hw : arrStep (arrRun (arrInit item shape true mem) ops) (.write .owner key new) = (s', none)) :
    s'.mirror = s'.mem := by
  have hrun : ∀ (ops : List ArrOp) (s : ArrState), Lags s → (∀ op ∈ ops, Gathers op) →
      Lags (arrRun s ops) := by
    intro ops
    induction ops with
    | nil => exact fun _ h _ => h
    | cons op ops ih =>
      exact fun s hs hg => ih _ (lags_step hs (hg op (by simp))).1
        (fun o ho => hg o (List.mem_cons_of_mem _ ho))
  have h0 : Lags (arrInit item shape true mem) := by
    refine ⟨rfl, by intro v hv; simp [arrInit] at hv, rfl, ?_, fun p hp => absurd rfl hp⟩
    intro a b he
    simp only [arrInit, Option.some.injEq, Prod.mk.injEq] at he
    omega
  have := (lags_step (hrun ops _ h0 h) (op := .write .owner key new) hk).2 key new rfl
  rw [hw] at this
  exact this rfl

example : (∀ op ∈ [ArrOp.write .owner [.at 0] [5], .view .owner [.range 2 2 1],
      .iadd (.view 0) [8, 9]], Gathers op) ∧
    (arrRun (arrInit 1 [4] true [0, 0, 0, 0]) [.write .owner [.at 0] [5],
      .view .owner [.range 2 2 1], .iadd (.view 0) [8, 9]]).mirror = [5, 0, 0, 0] ∧
    (arrRun (arrInit 1 [4] true [0, 0, 0, 0]) [.write .owner [.at 0] [5],
      .view .owner [.range 2 2 1], .iadd (.view 0) [8, 9], .write .owner [.at 1] [7]]).mirror =
      [5, 7, 8, 9] := by decide +kernel

/-- What the tracker misses: `+=` tells nothing, and an assignment through a nested view then
clears the region without telling it; an assignment to a reversed slice is not told; nor is one
through a view of a reversed view. -/
theorem mirror_follows_fails :
    -- V = Z[1:]; W = V[1:]; Z += 1; W[...] = 5
    ((arrRun (arrInit 1 [4] true [0, 0, 0, 0]) [.view .owner [.range 1 3 1],
        .view (.view 0) [.range 1 2 1], .iadd .owner [1, 1, 1, 1],
        .write (.view 1) [.range 0 2 1] [5, 5]]).mem = [1, 1, 5, 5] ∧
      (arrRun (arrInit 1 [4] true [0, 0, 0, 0]) [.view .owner [.range 1 3 1],
        .view (.view 0) [.range 1 2 1], .iadd .owner [1, 1, 1, 1],
        .write (.view 1) [.range 0 2 1] [5, 5]]).mirror = [0, 1, 5, 5] ∧
      (arrRun (arrInit 1 [4] true [0, 0, 0, 0]) [.view .owner [.range 1 3 1],
        .view (.view 0) [.range 1 2 1], .iadd .owner [1, 1, 1, 1],
        .write (.view 1) [.range 0 2 1] [5, 5]]).dirty = none) ∧
    -- Z[0] = 9; Z[::-1] = 1, 2, 3, 4
    ((arrRun (arrInit 1 [4] true [0, 0, 0, 0]) [.write .owner [.at 0] [9],
        .write .owner [.range 3 4 (-1)] [1, 2, 3, 4]]).mem = [4, 3, 2, 1] ∧
      (arrRun (arrInit 1 [4] true [0, 0, 0, 0]) [.write .owner [.at 0] [9],
        .write .owner [.range 3 4 (-1)] [1, 2, 3, 4]]).mirror = [9, 0, 0, 0]) ∧
    -- V = Z[::-1]; W = V[1:]; W[0] = 7
    ((arrRun (arrInit 1 [4] true [0, 0, 0, 0]) [.view .owner [.range 3 4 (-1)],
        .view (.view 0) [.range 1 3 1], .write (.view 1) [.at 0] [7]]).mem = [0, 0, 7, 0] ∧
      (arrRun (arrInit 1 [4] true [0, 0, 0, 0]) [.view .owner [.range 3 4 (-1)],
        .view (.view 0) [.range 1 3 1], .write (.view 1) [.at 0] [7]]).mirror =
        [0, 0, 0, 0]) := by decide +kernel

end Verif
