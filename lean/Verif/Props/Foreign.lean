import Verif.Lemmas.Foreign
/-! # C76: the buffer of a view of an array that is not tracked -/

namespace Verif

theorem subPath_append (L : Layout) (xs ys : List (List AxKey)) :
    subPath L (xs ++ ys) = match subPath L xs with
      | .error e => .error e
      | .ok T => subPath T ys := by
  induction xs generalizing L with
  | nil => rfl
  | cons x xs ih =>
    simp only [List.cons_append, subPath]
    cases L.sub x with
    | error e => rfl
    | ok T => exact ih T

theorem subPath_up {L T : Layout} {path : List (List AxKey)} (h : subPath L path = .ok T) (hL : L.Up)
    (hf : ∀ k ∈ path, Forward k) : T.Up := by
  induction path generalizing L with
  | nil => simp only [subPath, Except.ok.injEq] at h; exact h ▸ hL
  | cons k ks ih =>
    simp only [subPath] at h
    cases hk : L.sub k with
    | error e => rw [hk] at h; cases h
    | ok M =>
      rw [hk] at h
      exact ih h (sub_up hk hL (hf k (by simp))) (fun x hx => hf x (by simp [hx]))

/-- What holds of a view without gaps along histories. -/
structure ForeignFollows (s : Foreign) : Prop where
  strides : s.strides = cStrides s.item s.shape
  length : s.mem.length = s.shape.prod * s.item
  mirror : s.mirror = s.mem
  dirty : DirtyNonneg s.dirty

theorem foreignFollows_step {s : Foreign} (h : ForeignFollows s)
    {op : List (List AxKey) × List AxKey × List Nat} (hf : ForwardWrite op) :
    ForeignFollows (foreignWrite s op.1 op.2.1 op.2.2).1 := by
  obtain ⟨path, key, new⟩ := op
  obtain ⟨hp, hk⟩ := hf
  simp only at hp hk ⊢
  have hup : s.layout.Up := ⟨le_refl 0, by
    show ∀ x ∈ s.strides, 0 ≤ x
    rw [h.strides]; exact cStrides_nonneg _ _⟩
  unfold foreignWrite
  split
  · exact h
  · rename_i V hV
    have hVup := subPath_up hV hup hp
    split
    · exact h
    · split
      · exact h
      · rename_i T hT
        have hmark : 0 ≤ (markOf s.item V key T).1 := mark_low hT (by
          unfold Layout.Low
          rw [lowGo_up _ _ hVup.2]
          have := hVup.1
          omega)
        have hd : DirtyNonneg (updDirty s.dirty (markOf s.item V key T)) :=
          dirtyNonneg_upd h.dirty hmark
        simp only
        split
        · have hdata : Foreign.data
              { s with dirty := updDirty s.dirty (markOf s.item V key T),
                       mem := writeBytes s.mem (T.bytes s.item) new } =
              writeBytes s.mem (T.bytes s.item) new :=
            data_contiguous h.strides (by rw [writeBytes_length]; exact h.length)
          refine ⟨h.strides, by rw [writeBytes_length]; exact h.length, ?_, fun a b e => by cases e⟩
          show mirrorSet s.mirror _ _ = writeBytes s.mem (T.bytes s.item) new
          rw [hdata, h.mirror]
          have hchg : ∀ p : Nat, (writeBytes s.mem (T.bytes s.item) new)[p]? ≠ s.mem[p]? →
              (p : Int) ∈ T.bytes s.item := fun p hne => by
            by_contra hc; exact hne (writeBytes_getElem? hc)
          apply mirrorSet_eq (writeBytes_length _ _ _).symm
          · cases path with
            | nil =>
              simp only
              cases hq : updDirty s.dirty (markOf s.item V key T) with
              | none => simp
              | some q => exact hd q.1 q.2 hq
            | cons k ks =>
              simp only
              split
              · rename_i U hU
                exact (subPath_up hU hup (fun x hx => hp x (List.dropLast_subset _ hx))).1
              · simp
          · intro p _ hne
            have hpT := hchg p hne
            cases path with
            | nil =>
              simp only [subPath, Except.ok.injEq] at hV
              subst hV
              have hc := mark_cover hT (sub_up hT hup hk) (fun _ => ⟨rfl, h.strides⟩) hpT
              obtain ⟨a, b, e, h1, h2⟩ := reports_upd_right (d := s.dirty) hc
              simp only [e, Option.getD_some]
              exact ⟨h1, h2⟩
            | cons k ks =>
              simp only
              have hsplit : k :: ks = (k :: ks).dropLast ++ [(k :: ks).getLast (by simp)] :=
                (List.dropLast_concat_getLast (by simp)).symm
              rw [hsplit, subPath_append] at hV
              split
              · rename_i U hU
                rw [hU] at hV
                simp only [subPath] at hV
                split at hV
                · cases hV
                · rename_i W hW
                  simp only [Except.ok.injEq] at hV
                  subst hV
                  have hUup := subPath_up hU hup (fun x hx => hp x (List.dropLast_subset _ hx))
                  exact bytes_cover hUup.2 (sub_bytes _ hW _ (sub_bytes _ hT _ hpT))
              · rename_i e hU
                rw [hU] at hV
                cases hV
        · exact ⟨h.strides, h.length, h.mirror, hd⟩

/-- C76. A tracked view of an array without gaps is followed by its buffer: after every history of
assignments to forward slices, through the view and the views made of it, the buffer holds the bytes
of the array, wherever it lies in the array behind it. -/
theorem foreign_follows_partial {item lead : Nat} {shape mem : List Nat}
    {ops : List (List (List AxKey) × List AxKey × List Nat)} (hm : mem.length = shape.prod * item)
    (h : ∀ op ∈ ops, ForwardWrite op) :
    (foreignRun (foreignInit item shape (cStrides item shape) lead mem) ops).mirror =
      (foreignRun (foreignInit item shape (cStrides item shape) lead mem) ops).mem := by
  have h0 : ForeignFollows (foreignInit item shape (cStrides item shape) lead mem) := by
    refine ⟨rfl, hm, data_contiguous (s := ⟨item, shape, _, mem, none, []⟩) rfl hm, ?_⟩
    intro a b e
    simp only [foreignInit, Option.some.injEq, Prod.mk.injEq] at e
    omega
  have : ∀ (ops : List (List (List AxKey) × List AxKey × List Nat)) (s : Foreign),
      ForeignFollows s → (∀ op ∈ ops, ForwardWrite op) → ForeignFollows (foreignRun s ops) := by
    intro ops
    induction ops with
    | nil => exact fun s hs _ => hs
    | cons op ops ih =>
      intro s hs hf
      exact ih _ (foreignFollows_step hs (hf op (by simp))) (fun o ho => hf o (by simp [ho]))
  exact (this ops _ h0 h).mirror

/-- `Z1[2:-1].view(tracked)` of 8 numbers (tests/test_glm_tracked.py, test_partial_tracking). -/
example :
    let P := foreignInit 1 [7] (cStrides 1 [7]) 2 [1, 2, 3, 4, 5, 6, 7]
    let ops : List (List (List AxKey) × List AxKey × List Nat) :=
      [([], [], List.replicate 7 0), ([], [.at 0], [1]), ([], [.at (-1)], [2]),
       ([[.range 3 4 1], [.range 1 2 1]], [.at 1], [9])]
    (∀ op ∈ ops, ForwardWrite op) ∧ (foreignRun P ops).mirror = [1, 0, 0, 0, 0, 9, 2] := by
  decide +kernel

/-! ### Arrays with gaps -/

theorem subGo_ats {off : Int} {ks : List AxKey} {sh : List Nat} {st : List Int} {T : Layout}
    (h : subGo off ks sh st = .ok T) (hl : ks.length = sh.length) (hk : ∀ k ∈ ks, ∃ i, k = .at i) :
    T.shape = [] := by
  induction ks generalizing off sh st with
  | nil =>
    simp only [subGo, Except.ok.injEq] at h
    subst h
    exact List.length_eq_zero_iff.1 hl.symm
  | cons k ks ih =>
    obtain ⟨i, rfl⟩ := hk k (by simp)
    match sh, st with
    | [], _ => simp at hl
    | _ :: _, [] => simp [subGo] at h
    | n :: sh, s :: st =>
      simp only [subGo] at h
      split at h
      · exact ih h (by simpa using hl) (fun x hx => hk x (by simp [hx]))
      · cases h

/-- What holds of a view of vectors with gaps between them. -/
structure GapsFollow (n stride : Nat) (sh : List Nat) (s : Foreign) : Prop where
  shape : s.shape = n :: sh
  strides : s.strides = (stride : Int) :: cStrides s.item sh
  mirror : s.mirror = packedRows s.mem n stride (sh.prod * s.item)
  dirty : DirtyNonneg s.dirty

/-- The part of a successful assignment that sends the bytes. -/
theorem gaps_send {n stride : Nat} {sh : List Nat} {s : Foreign} (h : GapsFollow n stride sh s)
    (hgap : sh.prod * s.item ≤ stride) {key : List AxKey} {T : Layout} {new : List Nat}
    (hT : s.layout.sub key = .ok T) (h0 : 0 ≤ (markOf s.item s.layout key T).1)
    (hcov : ∀ i b : Nat, i < n → b < sh.prod * s.item → ((i * stride + b : Nat) : Int) ∈ T.bytes s.item →
      (markOf s.item s.layout key T).1 ≤ ((i * (sh.prod * s.item) + b : Nat) : Int) ∧
      ((i * (sh.prod * s.item) + b : Nat) : Int) < (markOf s.item s.layout key T).2) :
    GapsFollow n stride sh (foreignWrite s [] key new).1 := by
  have hd : DirtyNonneg (updDirty s.dirty (markOf s.item s.layout key T)) := dirtyNonneg_upd h.dirty h0
  unfold foreignWrite
  simp only [subPath, ne_eq, not_true_eq_false, and_false, if_false, hT]
  split
  · refine ⟨h.shape, h.strides, ?_, fun a b e => by cases e⟩
    have hdata := data_rows
      (s := { s with
        dirty := updDirty s.dirty (markOf s.item s.layout key T)
        mem := writeBytes s.mem (T.bytes s.item) new }) h.shape h.strides
    simp only at hdata ⊢
    rw [hdata, h.mirror]
    apply mirrorSet_eq (by rw [packedRows_length, packedRows_length])
    · cases hq : updDirty s.dirty (markOf s.item s.layout key T) with
      | none => simp
      | some q => exact hd q.1 q.2 hq
    · intro j hj hne
      rw [packedRows_length] at hj
      have hrow : 0 < sh.prod * s.item := by
        rcases Nat.eq_zero_or_pos (sh.prod * s.item) with h0 | h0
        · rw [h0] at hj; omega
        · exact h0
      have hjd : j / (sh.prod * s.item) * (sh.prod * s.item) + j % (sh.prod * s.item) = j :=
        Nat.div_add_mod' j _
      have hi : j / (sh.prod * s.item) < n := (Nat.div_lt_iff_lt_mul hrow).2 hj
      have hb : j % (sh.prod * s.item) < sh.prod * s.item := Nat.mod_lt _ hrow
      generalize j / (sh.prod * s.item) = i at *
      generalize j % (sh.prod * s.item) = b at *
      subst hjd
      rw [packedRows_getElem? _ _ _ _ _ _ hi hb, packedRows_getElem? _ _ _ _ _ _ hi hb] at hne
      have hin : ((i * stride + b : Nat) : Int) ∈ T.bytes s.item := by
        by_contra hc
        exact hne (by rw [writeBytes_getElem? hc])
      obtain ⟨a, c, e, h1, h2⟩ := reports_upd_right (d := s.dirty) (hcov i b hi hb hin)
      simp only [e, Option.getD_some]
      exact ⟨h1, h2⟩
  · exact ⟨h.shape, h.strides, h.mirror, hd⟩

/-- The bytes of a part of one vector. -/
theorem row_bytes {item : Nat} {sh : List Nat} {ks : List AxKey} {T' : Layout} {p : Int}
    (h : (Layout.mk 0 sh (cStrides item sh)).sub ks = .ok T') (hp : p ∈ T'.bytes item) :
    0 ≤ p ∧ p < ((sh.prod * item : Nat) : Int) := by
  have h1 := sub_bytes item h p hp
  have hi : 0 < item := by
    simp only [Layout.bytes, List.mem_flatMap, List.mem_map, List.mem_range] at hp
    obtain ⟨_, _, b, hb, _⟩ := hp
    omega
  have := (mem_bytes_cStrides hi sh 0 p).1 h1
  omega

theorem shifted_bytes {item : Nat} {off t p : Int} {sh : List Nat} {st : List Int} :
    p ∈ (Layout.mk (off + t) sh st).bytes item ↔ p - t ∈ (Layout.mk off sh st).bytes item := by
  have key : ∀ o : Int, elemsGo (o + t) sh st = (elemsGo o sh st).map (· + t) := by
    induction sh generalizing st with
    | nil => intro o; simp [elemsGo]
    | cons n sh ih =>
      intro o
      cases st with
      | nil => simp [elemsGo]
      | cons s st =>
        simp only [elemsGo, List.map_flatMap]
        apply flatMap_congr'
        intro i _
        rw [← ih]
        congr 1
        ring
  simp only [Layout.bytes, key, List.mem_flatMap, List.mem_map, List.mem_range]
  constructor
  · rintro ⟨o, ⟨o', ho', rfl⟩, b, hb, rfl⟩
    exact ⟨o', ho', b, hb, by ring⟩
  · rintro ⟨o, ho, b, hb, e⟩
    exact ⟨o + t, ⟨o, ho, rfl⟩, b, hb, by omega⟩

theorem gaps_all {n stride : Nat} {sh : List Nat} {s : Foreign} (h : GapsFollow n stride sh s)
    (hgap : sh.prod * s.item ≤ stride) {op : List (List AxKey) × List AxKey × List Nat}
    (ha : AllVectors n op) : GapsFollow n stride sh (foreignWrite s op.1 op.2.1 op.2.2).1 := by
  obtain ⟨path, key, new⟩ := op
  obtain ⟨hp, hk, hform⟩ := ha
  simp only at hp hk hform ⊢
  subst hp
  cases hT : s.layout.sub key with
  | error e =>
    simp only [foreignWrite, subPath, ne_eq, not_true_eq_false, and_false, if_false, hT]
    exact h
  | ok T =>
    have hlay : s.layout = ⟨0, n :: sh, (stride : Int) :: cStrides s.item sh⟩ := by
      simp [Foreign.layout, h.shape, h.strides]
    -- the form of the part
    obtain ⟨ks, T', hT', hTe⟩ : ∃ ks T', (Layout.mk 0 sh (cStrides s.item sh)).sub ks = .ok T' ∧
        T = ⟨T'.off, n :: T'.shape, (stride : Int) :: T'.strides⟩ ∧ T'.Up := by
      have hrow : (Layout.mk 0 sh (cStrides s.item sh)).Up := ⟨le_refl 0, cStrides_nonneg _ _⟩
      rcases hform with rfl | ⟨ks, rfl⟩
      · refine ⟨[], _, rfl, ?_, hrow⟩
        rw [hlay] at hT
        simp only [Layout.sub, subGo, Except.ok.injEq] at hT
        exact hT.symm
      · rw [hlay] at hT
        have hks : Forward ks := fun k hk' => hk k (by simp [hk'])
        simp only [Layout.sub, subGo] at hT
        split at hT
        · rename_i hn
          split at hT
          · rename_i L hL
            simp only [Except.ok.injEq] at hT
            exact ⟨ks, L, hL, by rw [← hT, hn], sub_up (L := ⟨0, sh, cStrides s.item sh⟩) (key := ks) hL hrow hks⟩
          · cases hT
        · split at hT
          · simp only [Int.zero_mul, Int.add_zero, Int.mul_one] at hT
            split at hT
            · rename_i L hL
              simp only [Except.ok.injEq] at hT
              exact ⟨ks, L, hL, hT.symm, sub_up (L := ⟨0, sh, cStrides s.item sh⟩) (key := ks) hL hrow hks⟩
            · cases hT
          · cases hT
    obtain ⟨rfl, hup⟩ := hTe
    apply gaps_send h hgap hT
    · simp only [markOf, reduceCtorEq, if_false, Layout.extents]
      exact hup.1
    · intro i b hi hb hin
      simp only [Layout.bytes, elemsGo, List.mem_flatMap, List.mem_range] at hin
      obtain ⟨o, ⟨i', hi', ho⟩, hob⟩ := hin
      have hsh : ((i * stride + b : Nat) : Int) - (i' : Int) * stride ∈
          (Layout.mk T'.off T'.shape T'.strides).bytes s.item := by
        rw [← shifted_bytes]
        simp only [Layout.bytes, List.mem_flatMap]
        exact ⟨o, ho, hob⟩
      have hr := row_bytes hT' hsh
      have hii : i = i' := by
        rcases Nat.lt_trichotomy i i' with hlt | he | hgt
        · exfalso
          have : (i + 1) * stride ≤ i' * stride := Nat.mul_le_mul_right _ hlt
          have e : (i + 1) * stride = i * stride + stride := by ring
          push_cast at hr
          have h3 : ((i * stride + stride : Nat) : Int) ≤ ((i' * stride : Nat) : Int) := by
            exact_mod_cast e ▸ this
          push_cast at h3
          omega
        · exact he
        · exfalso
          have : (i' + 1) * stride ≤ i * stride := Nat.mul_le_mul_right _ hgt
          have e : (i' + 1) * stride = i' * stride + stride := by ring
          push_cast at hr
          have h3 : ((i' * stride + stride : Nat) : Int) ≤ ((i * stride : Nat) : Int) := by
            exact_mod_cast e ▸ this
          push_cast at h3
          omega
      subst hii
      have hcov := bytes_cover hup.2 hsh
      simp only [Layout.extents] at hcov
      simp only [markOf, reduceCtorEq, if_false, Layout.extents, spanGo]
      have h1 : (((i * stride + b : Nat) : Int) - (i : Int) * stride) = b := by push_cast; ring
      rw [h1] at hcov
      have h2 : i * (sh.prod * s.item) ≤ (n - 1) * stride :=
        Nat.mul_le_mul (by omega) hgap
      have h3 : ((i * (sh.prod * s.item) : Nat) : Int) ≤ ((n : Int) - 1) * stride := by
        have : (((n - 1) * stride : Nat) : Int) = ((n : Int) - 1) * stride := by
          push_cast [Nat.cast_sub (show 1 ≤ n by omega)]; ring
        rw [← this]
        exact_mod_cast h2
      constructor
      · have : (0 : Int) ≤ ((i * (sh.prod * s.item) : Nat) : Int) := by positivity
        push_cast at this ⊢
        omega
      · push_cast at h3 ⊢
        omega

theorem gaps_one {n stride : Nat} {sh : List Nat} {s : Foreign} (h : GapsFollow n stride sh s)
    (hgap : sh.prod * s.item ≤ stride) {op : List (List AxKey) × List AxKey × List Nat}
    (ha : OneNumber (sh.length + 1) op) :
    GapsFollow n stride sh (foreignWrite s op.1 op.2.1 op.2.2).1 := by
  obtain ⟨path, key, new⟩ := op
  obtain ⟨hp, hl, hk⟩ := ha
  simp only at hp hl hk ⊢
  subst hp
  cases hT : s.layout.sub key with
  | error e =>
    simp only [foreignWrite, subPath, ne_eq, not_true_eq_false, and_false, if_false, hT]
    exact h
  | ok T =>
    have hlay : s.layout = ⟨0, n :: sh, (stride : Int) :: cStrides s.item sh⟩ := by
      simp [Foreign.layout, h.shape, h.strides]
    have hTs : T.shape = [] := by
      rw [hlay] at hT
      exact subGo_ats hT (by simpa using hl) hk
    cases key with
    | nil => simp at hl
    | cons k ks =>
      obtain ⟨i0, rfl⟩ := hk k (by simp)
      have hT2 := hT
      rw [hlay] at hT2
      simp only [Layout.sub, subGo] at hT2
      split at hT2
      · rename_i hr
        have hn : 0 < n := by omega
        obtain ⟨hoff, hst⟩ := subGo_single hT2 hTs
        have hrow : ∃ T', (Layout.mk 0 sh (cStrides s.item sh)).sub ks = .ok T' ∧
            T'.off = ravelGo ks sh * s.item ∧ T'.shape = [] ∧ T'.strides = [] := by
          have hs := subGo_shift (0 + i0 % n * stride) 0 ks sh (cStrides s.item sh)
          rw [Int.zero_add] at hs
          rw [hs] at hT2
          cases h' : subGo 0 ks sh (cStrides s.item sh) with
          | error e => rw [h'] at hT2; cases hT2
          | ok T' =>
            rw [h'] at hT2
            simp only [Except.map, Except.ok.injEq] at hT2
            have : T'.shape = [] := by rw [← hT2] at hTs; exact hTs
            obtain ⟨h1, h2⟩ := subGo_single h' this
            exact ⟨T', h', by omega, this, h2⟩
        obtain ⟨T', hT', hoff', hsh', hst'⟩ := hrow
        have hm0 : 0 ≤ i0 % (n : Int) := Int.emod_nonneg _ (by omega)
        have hm1 : i0 % (n : Int) < n := Int.emod_lt_of_pos _ (by omega)
        apply gaps_send h hgap hT
        · simp only [markOf, hTs, if_true, ravelGo, h.shape, Foreign.layout]
          have := ravelGo_nonneg hT'
          positivity
        · intro i b hi hb hin
          have hTe : T = ⟨T.off, [], []⟩ := by rw [← hTs, ← hst]
          rw [hTe] at hin
          simp only [Layout.bytes, elemsGo, List.flatMap_cons, List.flatMap_nil, List.append_nil,
            List.mem_map, List.mem_range] at hin
          obtain ⟨b', hb', e⟩ := hin
          have hr := row_bytes hT' (p := T'.off + b') (by
            have : T' = ⟨T'.off, [], []⟩ := by rw [← hsh', ← hst']
            rw [this]
            simp only [Layout.bytes, elemsGo, List.flatMap_cons, List.flatMap_nil, List.append_nil,
              List.mem_map, List.mem_range]
            exact ⟨b', hb', rfl⟩)
          rw [hoff'] at hr
          obtain ⟨m, hm⟩ := Int.eq_ofNat_of_zero_le hm0
          rw [hoff, hm] at e
          have hii : i = m := by
            have hmn : m < n := by omega
            rcases Nat.lt_trichotomy i m with hlt | he | hgt
            · exfalso
              have : (i + 1) * stride ≤ m * stride := Nat.mul_le_mul_right _ hlt
              have e' : (i + 1) * stride = i * stride + stride := by ring
              have h3 : ((i * stride + stride : Nat) : Int) ≤ ((m * stride : Nat) : Int) := by
                exact_mod_cast e' ▸ this
              push_cast at h3 e hr
              omega
            · exact he
            · exfalso
              have : (m + 1) * stride ≤ i * stride := Nat.mul_le_mul_right _ hgt
              have e' : (m + 1) * stride = m * stride + stride := by ring
              have h3 : ((m * stride + stride : Nat) : Int) ≤ ((i * stride : Nat) : Int) := by
                exact_mod_cast e' ▸ this
              push_cast at h3 e hr
              omega
          subst hii
          simp only [markOf, hTs, if_true, Foreign.layout, h.shape, ravelGo, hm]
          have hbe : (b : Int) = ravelGo ks sh * s.item + b' := by
            push_cast at e
            omega
          have hx : ((i * (sh.prod * s.item) + b : Nat) : Int) =
              ((i : Int) * (sh.prod : Nat) + ravelGo ks sh) * s.item + b' := by
            push_cast
            rw [hbe]
            ring
          rw [hx]
          omega
      · cases hT2

/-- C76. Where vectors have gaps between them, as in a field of an array of structures, the buffer
follows assignments to all vectors at once, or to some components of all of them, and to single
numbers. -/
theorem foreign_gaps_partial {item lead n stride : Nat} {sh mem : List Nat}
    {ops : List (List (List AxKey) × List AxKey × List Nat)} (hgap : sh.prod * item ≤ stride)
    (h : ∀ op ∈ ops, AllVectors n op ∨ OneNumber (sh.length + 1) op) :
    (foreignRun (foreignInit item (n :: sh) ((stride : Int) :: cStrides item sh) lead mem) ops).mirror =
      packedRows (foreignRun (foreignInit item (n :: sh) ((stride : Int) :: cStrides item sh) lead mem)
        ops).mem n stride (sh.prod * item) := by
  have h0 : GapsFollow n stride sh
      (foreignInit item (n :: sh) ((stride : Int) :: cStrides item sh) lead mem) := by
    refine ⟨rfl, rfl, data_rows rfl rfl, ?_⟩
    intro a b e
    simp only [foreignInit, Option.some.injEq, Prod.mk.injEq] at e
    omega
  have : ∀ (ops : List (List (List AxKey) × List AxKey × List Nat)) (s : Foreign), s.item = item →
      GapsFollow n stride sh s → (∀ op ∈ ops, AllVectors n op ∨ OneNumber (sh.length + 1) op) →
      (foreignRun s ops).item = item ∧ GapsFollow n stride sh (foreignRun s ops) := by
    intro ops
    induction ops with
    | nil => exact fun s hi hs _ => ⟨hi, hs⟩
    | cons op ops ih =>
      intro s hi hs hf
      have hitem : (foreignWrite s op.1 op.2.1 op.2.2).1.item = s.item := by
        unfold foreignWrite
        repeat' (first | rfl | (split; skip) | skip)
        all_goals (try rfl)
        all_goals (simp only; split <;> rfl)
      refine ih _ (hitem.trans hi) ?_ (fun o ho => hf o (by simp [ho]))
      rcases hf op (by simp) with ha | ha
      · exact gaps_all hs (by rw [hi]; exact hgap) ha
      · exact gaps_one hs (by rw [hi]; exact hgap) ha
  obtain ⟨h1, h2⟩ := this ops _ rfl h0 h
  have := h2.mirror
  rwa [h1] at this

/-- `C = as_vec4(Z["color"])` of 2 structures of 3 floats and 4 bytes; `C.rgba = 1, 2, 3, 4`
(tests/test_glm_tracked.py, test_structured_non_tracked_array) and `C[1, 2] = 9`. -/
example :
    (foreignRun (foreignInit 1 [2, 4] [16, 1] 12 (List.replicate 20 0))
      [([], [.range 0 2 1, .at 0], [1, 1]), ([], [.range 0 2 1, .at 1], [2, 2]),
       ([], [.range 0 2 1, .at 2], [3, 3]), ([], [.range 0 2 1, .at 3], [4, 4]),
       ([], [.at 1, .at 2], [9])]).mirror = [1, 2, 3, 4, 1, 2, 9, 4] ∧
    (∀ op ∈ [(([] : List (List AxKey)), [AxKey.range 0 2 1, .at 0], [1, 1])], AllVectors 2 op) ∧
    OneNumber 2 ([], [.at 1, .at 2], [9]) := by
  refine ⟨by decide +kernel, ?_, ⟨rfl, rfl, ?_⟩⟩
  · simp [AllVectors, Forward]
  · simp

/-- C76. Assigning one vector sends the wrong bytes: after `C[1] = 1, 2, 3, 4` the buffer of such a
view still holds the old vector, and with a view of vectors in between other vectors are sent. -/
theorem foreign_fails :
    let C := foreignInit 1 [3, 4] [16, 1] 12 (List.replicate 36 0)
    (foreignRun C [([], [.at 1], [1, 2, 3, 4])]).data = [0, 0, 0, 0, 1, 2, 3, 4, 0, 0, 0, 0] ∧
    (foreignRun C [([], [.at 1], [1, 2, 3, 4])]).mirror = List.replicate 12 0 ∧
    (foreignRun C [([], [], List.replicate 12 7), ([], [.at 1], [1, 2, 3, 4])]).data =
      [7, 7, 7, 7, 1, 2, 3, 4, 7, 7, 7, 7] ∧
    (foreignRun C [([], [], List.replicate 12 7), ([], [.at 1], [1, 2, 3, 4])]).mirror =
      List.replicate 12 7 := by decide +kernel

end Verif
