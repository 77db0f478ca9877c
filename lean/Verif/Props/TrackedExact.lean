import Verif.Props.Tracked
/-
C36 and C37, exactly: which single assignments are reported, and which reach the tracker.
-/

namespace Verif

/-! ### Lemmas -/

theorem elemsGo_first (sh : List Nat) (st : List Int) (off : Int) (hpos : ∀ n ∈ sh, 0 < n) :
    off ∈ elemsGo off sh st := by
  induction sh generalizing st off with
  | nil => simp [elemsGo]
  | cons n sh ih =>
    cases st with
    | nil => simp [elemsGo]
    | cons t st =>
      simp only [elemsGo, List.mem_flatMap, List.mem_range]
      refine ⟨0, hpos n (by simp), ?_⟩
      simpa using ih st off (fun m hm => hpos m (List.mem_cons_of_mem _ hm))

/-- The item next to the first one along an axis. -/
theorem elemsGo_next {sh : List Nat} {st : List Int} {off : Int} (hpos : ∀ n ∈ sh, 0 < n)
    {n : Nat} {t : Int} (h : (n, t) ∈ sh.zip st) (hn : 2 ≤ n) : off + t ∈ elemsGo off sh st := by
  induction sh generalizing st off with
  | nil => simp at h
  | cons m sh ih =>
    cases st with
    | nil => simp at h
    | cons u st =>
      have hp' : ∀ k ∈ sh, 0 < k := fun k hk => hpos k (List.mem_cons_of_mem _ hk)
      simp only [List.zip_cons_cons, List.mem_cons, Prod.mk.injEq] at h
      simp only [elemsGo, List.mem_flatMap, List.mem_range]
      rcases h with ⟨rfl, rfl⟩ | h
      · exact ⟨1, by omega, by simpa using elemsGo_first sh st (off + t) hp'⟩
      · exact ⟨0, hpos m (by simp), by simpa using ih hp' h⟩

/-- When only axes of one item go backwards, all items lie between the first and the last. -/
theorem elemsGo_between (sh : List Nat) (st : List Int) (off : Int)
    (h : ∀ q ∈ sh.zip st, q.2 < 0 → q.1 ≤ 1) :
    ∀ o ∈ elemsGo off sh st, off ≤ o ∧ o ≤ off + spanGo sh st := by
  induction sh generalizing st off with
  | nil => intro o ho; simp [elemsGo] at ho; simp [spanGo, ho]
  | cons n sh ih =>
    cases st with
    | nil => intro o ho; simp [elemsGo] at ho; simp [spanGo, ho]
    | cons t st =>
      intro o ho
      simp only [elemsGo, List.mem_flatMap, List.mem_range] at ho
      obtain ⟨i, hi, ho⟩ := ho
      have hr := ih st (off + i * t) (fun q hq => h q (by simp [hq])) o ho
      have hh := h (n, t) (by simp)
      simp only [spanGo]
      by_cases ht : t < 0
      · have hn1 : n = 1 := by have := hh ht; omega
        subst hn1
        obtain rfl : i = 0 := by omega
        simp only [Nat.cast_zero, zero_mul, add_zero, Nat.cast_one, sub_self, zero_add] at hr ⊢
        exact hr
      · have h1 : (0 : Int) ≤ (i : Int) * t := Int.mul_nonneg (by omega) (by omega)
        have h2 : (i : Int) * t ≤ ((n : Int) - 1) * t :=
          Int.mul_le_mul_of_nonneg_right (by omega) (by omega)
        omega

/-- Whether a key fits depends on the shape only. -/
theorem subGo_within {off off' : Int} {ks : List AxKey} {sh : List Nat} {st st' : List Int} {T : Layout}
    (h : subGo off ks sh st = .ok T) (hl : st'.length = sh.length) :
    ∃ T', subGo off' ks sh st' = .ok T' ∧ T'.shape = T.shape := by
  induction ks generalizing off off' sh st st' T with
  | nil =>
    simp only [subGo, Except.ok.injEq] at h
    exact ⟨_, rfl, by rw [← h]⟩
  | cons k ks ih =>
    cases sh with
    | nil => cases k <;> simp [subGo] at h
    | cons n sh =>
      cases st with
      | nil => cases k <;> simp [subGo] at h
      | cons t st =>
        cases st' with
        | nil => simp at hl
        | cons u st' =>
          have hl' : st'.length = sh.length := by simpa using hl
          cases k with
          | «at» i =>
            simp only [subGo] at h ⊢
            split at h
            · rename_i hc
              rw [if_pos hc]
              exact ih h hl'
            · simp at h
          | range a c d =>
            simp only [subGo] at h ⊢
            split at h
            · rename_i hc
              rw [if_pos hc]
              split at h
              · rename_i L hL
                obtain ⟨L', h1, h2⟩ := ih (off' := off') hL hl'
                rw [h1]
                simp only [Except.ok.injEq] at h
                exact ⟨_, rfl, by rw [← h]; simp [h2]⟩
              · simp at h
            · rename_i hc
              rw [if_neg hc]
              split at h
              · rename_i hr
                rw [if_pos hr]
                split at h
                · rename_i L hL
                  obtain ⟨L', h1, h2⟩ := ih (off' := off' + a * u) hL hl'
                  rw [h1]
                  simp only [Except.ok.injEq] at h
                  exact ⟨_, rfl, by rw [← h]; simp [h2]⟩
                · simp at h
              · simp at h

theorem cStrides_len (item : Nat) (sh : List Nat) : (cStrides item sh).length = sh.length := by
  induction sh with
  | nil => rfl
  | cons n sh ih => simp [cStrides, ih]

/-- What an assignment after a `clear` reports. -/
theorem write_dirty {s : ArrState} {dst : ArrRef} {key : List AxKey} {new : List Nat}
    {L T : Layout} (hd : s.dirty = none) (ht : s.tracker = false) (hl : s.layout dst = some L)
    (hs : L.sub key = .ok T) :
    (arrStep s (.write dst key new)).1.dirty = some (markOf s.item L key T) := by
  unfold arrStep
  simp only [hl, hs, ht, Bool.false_eq_true, if_false, hd, updDirty]
  split <;> rfl

/-! ### C36 -/

/-- Exactly: an assignment to a slice after a `clear` is reported, byte for byte, just when it does
not go backwards along any axis of which it has two items. -/
theorem slice_reported_iff {s : ArrState} {dst : ArrRef} {key : List AxKey} {new : List Nat}
    {L T : Layout} (hd : s.dirty = none) (ht : s.tracker = false) (hl : s.layout dst = some L)
    (hs : L.sub key = .ok T) (hne : T.shape ≠ []) (hpos : ∀ n ∈ T.shape, 0 < n) (hi : 0 < s.item) :
    (∀ p ∈ T.bytes s.item, ∃ a b, (arrStep s (.write dst key new)).1.dirty = some (a, b) ∧ a ≤ p ∧ p < b) ↔
      ∀ q ∈ T.shape.zip T.strides, q.2 < 0 → q.1 ≤ 1 := by
  rw [write_dirty hd ht hl hs]
  simp only [markOf, if_neg hne, Layout.extents]
  constructor
  · intro h q hq hneg
    by_contra hc
    have hm := elemsGo_next (off := T.off) hpos (n := q.1) (t := q.2) hq (by omega)
    obtain ⟨a, b, he, h1, _⟩ := h (T.off + q.2) (by
      simp only [Layout.bytes, List.mem_flatMap, List.mem_map, List.mem_range]
      exact ⟨_, hm, 0, hi, by simp⟩)
    simp only [Option.some.injEq, Prod.mk.injEq] at he
    omega
  · intro h p hp
    simp only [Layout.bytes, List.mem_flatMap, List.mem_map, List.mem_range] at hp
    obtain ⟨o, ho, b, hb, rfl⟩ := hp
    have := elemsGo_between _ _ _ h o ho
    exact ⟨_, _, rfl, by omega, by omega⟩

/-- Exactly: a number assigned after a `clear` is reported just when it lies where it would lie if
the array or view it is assigned through were a whole array. -/
theorem number_reported_iff {s : ArrState} {dst : ArrRef} {key : List AxKey} {new : List Nat}
    {L T : Layout} (hd : s.dirty = none) (ht : s.tracker = false) (hl : s.layout dst = some L)
    (hs : L.sub key = .ok T) (hT : T.shape = []) (hi : 0 < s.item) :
    ∃ T', (Layout.mk 0 L.shape (cStrides s.item L.shape)).sub key = .ok T' ∧
      ((∀ p ∈ T.bytes s.item, ∃ a b, (arrStep s (.write dst key new)).1.dirty = some (a, b) ∧ a ≤ p ∧ p < b) ↔
        T.off = T'.off) := by
  obtain ⟨T', h1, h2⟩ := subGo_within (off' := 0) (st' := cStrides s.item L.shape) hs (cStrides_len _ _)
  refine ⟨T', h1, ?_⟩
  have h3 := (subGo_single h1 (by rw [h2, hT])).1
  rw [write_dirty hd ht hl hs]
  simp only [markOf, if_pos hT]
  simp only [zero_add] at h3
  rw [h3]
  simp only [Layout.bytes, hT, elemsGo, List.flatMap_cons, List.flatMap_nil, List.append_nil, List.mem_map,
    List.mem_range, Option.some.injEq, Prod.mk.injEq]
  constructor
  · intro h
    obtain ⟨_, _, ⟨rfl, rfl⟩, h4, _⟩ := h T.off ⟨0, hi, by simp⟩
    obtain ⟨_, _, ⟨rfl, rfl⟩, _, h6⟩ := h (T.off + (s.item - 1 : Nat)) ⟨s.item - 1, by omega, rfl⟩
    omega
  · rintro h p ⟨b, hb, rfl⟩
    exact ⟨_, _, ⟨rfl, rfl⟩, by omega, by omega⟩

/-- Of a 3 × 2 array of 4 byte items: the reversed columns of all rows are not reported, one row taken
backwards is; a number is reported through a view that begins with the array and has its rows, not
through one that begins later. -/
example :
    ((Layout.mk 0 [3, 2] (cStrides 4 [3, 2])).sub [.range 0 3 1, .range 1 2 (-1)] = .ok ⟨4, [3, 2], [8, -4]⟩) ∧
    ((Layout.mk 0 [3, 2] (cStrides 4 [3, 2])).sub [.range 2 1 (-1)] = .ok ⟨16, [1, 2], [-8, 4]⟩) ∧
    ¬ (∀ q ∈ [3, 2].zip [8, (-4 : Int)], q.2 < 0 → q.1 ≤ 1) ∧
    (∀ q ∈ [1, 2].zip [(-8 : Int), 4], q.2 < 0 → q.1 ≤ 1) ∧
    (Layout.mk 0 [2, 2] [8, 4]).sub [.at 1, .at 1] = .ok ⟨12, [], []⟩ ∧
    (Layout.mk 8 [2, 2] [8, 4]).sub [.at 1, .at 1] = .ok ⟨20, [], []⟩ ∧
    (Layout.mk 0 [2, 2] (cStrides 4 [2, 2])).sub [.at 1, .at 1] = .ok ⟨12, [], []⟩ := by
  decide +kernel

/-! ### C37 -/

/-- A tracker told a region keeps the bytes outside it. -/
theorem mirrorSet_outside {mirror data : List Nat} (hl : mirror.length = data.length) {a b : Int}
    (ha : 0 ≤ a) (hb : 0 ≤ b) {p : Nat} (hp : ¬ (a ≤ (p : Int) ∧ (p : Int) < b)) :
    (mirrorSet mirror a (pySlice data a b))[p]? = mirror[p]? := by
  obtain ⟨n, rfl⟩ := Int.eq_ofNat_of_zero_le ha
  obtain ⟨k, rfl⟩ := Int.eq_ofNat_of_zero_le hb
  have hc : ∀ j : Nat, (if ((j : Int)) < 0 then max 0 ((j : Int) + data.length)
      else min (j : Int) data.length).toNat = min j data.length := by
    intro j; rw [if_neg (by omega)]; omega
  unfold pySlice
  simp only [hc]
  have hlen : ((data.take (min k data.length)).drop (min n data.length)).length =
      min k data.length - n := by
    rw [List.length_drop, List.length_take]; omega
  unfold mirrorSet
  simp only [Int.toNat_natCast]
  rw [List.take_of_length_le (l := (data.take _).drop _) (by rw [hlen]; omega), List.append_assoc]
  by_cases hpl : p < mirror.length
  · by_cases h1 : p < n
    · rw [List.getElem?_append_left (by rw [List.length_take]; omega), List.getElem?_take, if_pos h1]
    · have hx : (mirror.take n).length = n := by rw [List.length_take]; omega
      rw [List.getElem?_append_right (by omega), hx, List.getElem?_append_right (by omega),
        List.getElem?_drop]
      congr 1
      omega
  · rw [List.getElem?_eq_none (l := mirror) (by omega), List.getElem?_eq_none]
    simp only [List.length_append, hlen, List.length_drop, List.length_take]
    omega

/-- Exactly: a tracker that holds the array and knows of no pending change holds it after an assignment
through the array itself just when every byte the assignment changes is one that an array without
tracker would report. -/
theorem told_iff_reported {s : ArrState} {key : List AxKey} {new : List Nat} {T : Layout}
    (hf : Follows s) (hd : s.dirty = none) (hs : s.owner.sub key = .ok T) (hpos : ∀ n ∈ T.shape, 0 < n)
    (hn : new.length = (T.bytes s.item).length) :
    ((arrStep s (.write .owner key new)).1.mirror = (arrStep s (.write .owner key new)).1.mem ↔
      ∀ p : Nat, (arrStep s (.write .owner key new)).1.mem[p]? ≠ s.mem[p]? →
        Reports (arrStep { s with tracker := false } (.write .owner key new)).1.dirty p) := by
  obtain ⟨htr, hlen, hmi, hdn, hvs⟩ := hf
  have hlow := sub_low hs (owner_low s)
  have h0 : 0 ≤ (markOf s.item s.owner key T).1 := mark_low hs (owner_low s)
  have h1 : 0 ≤ (markOf s.item s.owner key T).2 := by
    unfold markOf
    split
    · have := Int.mul_nonneg (ravelGo_nonneg hs) (Int.natCast_nonneg s.item)
      simp only
      omega
    · simp only [Layout.extents]
      have : 0 ≤ T.off + spanGo T.shape T.strides := by
        refine Int.le_trans hlow ?_
        have hsp : ∀ (sh : List Nat) (st : List Int), (∀ n ∈ sh, 0 < n) → lowGo sh st ≤ spanGo sh st := by
          intro sh
          induction sh with
          | nil => intro st _; simp [lowGo, spanGo]
          | cons n sh ih =>
            intro st hp
            cases st with
            | nil => simp [lowGo, spanGo]
            | cons t st =>
              have := ih st (fun m hm => hp m (List.mem_cons_of_mem _ hm))
              have hn0 := hp n (by simp)
              simp only [lowGo, spanGo]
              have he : (((n - 1 : Nat) : Int)) = (n : Int) - 1 := by omega
              rw [he]
              omega
        have := hsp T.shape T.strides hpos
        omega
      omega
  have hrep : (arrStep { s with tracker := false } (.write .owner key new)).1.dirty =
      some (markOf s.item s.owner key T) :=
    write_dirty (s := { s with tracker := false }) hd rfl rfl hs
  rw [hrep]
  have hstep : (arrStep s (.write .owner key new)).1.mem = writeBytes s.mem (T.bytes s.item) new ∧
      (arrStep s (.write .owner key new)).1.mirror = mirrorSet s.mirror (markOf s.item s.owner key T).1
        (pySlice (writeBytes s.mem (T.bytes s.item) new) (markOf s.item s.owner key T).1
          (markOf s.item s.owner key T).2) := by
    unfold arrStep
    simp only [ArrState.layout, hs, hn, htr, if_true, hd, updDirty, Option.getD_some]
    exact ⟨trivial, trivial⟩
  rw [hstep.1, hstep.2]
  generalize hw : writeBytes s.mem (T.bytes s.item) new = w
  have hwl : w.length = s.mem.length := by rw [← hw, writeBytes_length]
  have hl : s.mirror.length = w.length := by rw [hwl, hmi]
  constructor
  · intro h p hp
    by_contra hc
    apply hp
    rw [← h, mirrorSet_outside hl h0 h1 (fun hh => hc ⟨_, _, rfl, hh.1, hh.2⟩), hmi]
  · intro h
    refine mirrorSet_eq hl h0 ?_
    intro p _ hne
    obtain ⟨a, b, he, h2, h3⟩ := h p (by rw [← hmi]; exact hne)
    simp only [Option.some.injEq] at he
    rw [he]
    exact ⟨h2, h3⟩

/-- After an assignment the tracker holds the array; of the reversed slice assigned then it misses all
but what does not change. -/
example :
    (arrRun (arrInit 1 [4] true [0, 0, 0, 0]) [.write .owner [.at 0] [9]]).dirty = none ∧
    Along Tells (arrInit 1 [4] true [0, 0, 0, 0]) [.write .owner [.at 0] [9]] ∧
    (Layout.mk 0 [4] (cStrides 1 [4])).sub [.range 3 4 (-1)] = .ok ⟨3, [4], [-1]⟩ ∧
    (arrStep (arrRun (arrInit 1 [4] true [0, 0, 0, 0]) [.write .owner [.at 0] [9]])
      (.write .owner [.range 3 4 (-1)] [1, 0, 0, 9])).1.mem = [9, 0, 0, 1] ∧
    (arrStep (arrRun (arrInit 1 [4] true [0, 0, 0, 0]) [.write .owner [.at 0] [9]])
      (.write .owner [.range 3 4 (-1)] [1, 0, 0, 9])).1.mirror = [9, 0, 0, 0] := by
  decide +kernel

end Verif
