import Verif.Spec.Tracked
import Mathlib.Tactic.Ring
import Mathlib.Tactic.Linarith
/-
Lemmas on tracked arrays.
-/

namespace Verif

theorem elemsGo_cover (off : Int) (sh : List Nat) (st : List Int) (h : ∀ s ∈ st, 0 ≤ s) :
    ∀ o ∈ elemsGo off sh st, off ≤ o ∧ o ≤ off + spanGo sh st := by
  induction sh generalizing off st with
  | nil => intro o ho; simp [elemsGo] at ho; simp [spanGo, ho]
  | cons n sh ih =>
    match st, h with
    | [], _ => intro o ho; simp [elemsGo] at ho; simp [spanGo, ho]
    | s :: st, h =>
      intro o ho
      simp only [elemsGo, List.mem_flatMap, List.mem_range] at ho
      obtain ⟨i, hi, ho⟩ := ho
      have h0 : 0 ≤ s := h s (by simp)
      have := ih (off + i * s) st (fun t ht => h t (List.mem_cons_of_mem _ ht)) o ho
      have h1 : 0 ≤ (i : Int) * s := Int.mul_nonneg (by omega) h0
      have h2 : (i : Int) * s ≤ ((n : Int) - 1) * s := Int.mul_le_mul_of_nonneg_right (by omega) h0
      simp only [spanGo]
      omega

theorem bytes_cover {item : Nat} {L : Layout} (h : ∀ s ∈ L.strides, 0 ≤ s) {p : Int}
    (hp : p ∈ L.bytes item) : (L.extents item).1 ≤ p ∧ p < (L.extents item).2 := by
  simp only [Layout.bytes, List.mem_flatMap, List.mem_map, List.mem_range] at hp
  obtain ⟨o, ho, b, hb, rfl⟩ := hp
  have := elemsGo_cover _ _ _ h o ho
  simp only [Layout.extents]
  omega

theorem cStrides_nonneg (item : Nat) (sh : List Nat) : ∀ s ∈ cStrides item sh, 0 ≤ s := by
  induction sh with
  | nil => simp [cStrides]
  | cons n sh ih =>
    intro s hs
    simp only [cStrides, List.mem_cons] at hs
    rcases hs with rfl | hs
    · omega
    · exact ih s hs

theorem subGo_up {off : Int} {ks : List AxKey} {sh : List Nat} {st : List Int} {T : Layout}
    (h : subGo off ks sh st = .ok T) (h0 : 0 ≤ off) (hs : ∀ s ∈ st, 0 ≤ s) (hf : Forward ks) :
    T.Up := by
  induction ks generalizing off sh st T with
  | nil =>
    simp only [subGo, Except.ok.injEq] at h
    subst h
    exact ⟨h0, hs⟩
  | cons k ks ih =>
    have hf' : Forward ks := fun k hm => hf k (List.mem_cons_of_mem _ hm)
    match k, sh, st with
    | .at i, n :: sh, s :: st =>
      simp only [subGo] at h
      split at h
      · rename_i hc
        have hs0 : 0 ≤ s := hs s (by simp)
        have hn : (0 : Int) < n := by omega
        have : 0 ≤ i % (n : Int) * s := Int.mul_nonneg (Int.emod_nonneg _ (by omega)) hs0
        exact ih h (by omega) (fun t ht => hs t (List.mem_cons_of_mem _ ht)) hf'
      · cases h
    | .range a c d, n :: sh, s :: st =>
      have hs0 : 0 ≤ s := hs s (by simp)
      have hd : 0 ≤ d := hf (.range a c d) (by simp)
      simp only [subGo] at h
      split at h
      · cases hg : subGo off ks sh st with
        | error e => rw [hg] at h; cases h
        | ok L =>
          rw [hg] at h
          simp only [Except.ok.injEq] at h
          subst h
          have := ih hg h0 (fun t ht => hs t (List.mem_cons_of_mem _ ht)) hf'
          refine ⟨this.1, ?_⟩
          intro t ht
          rcases List.mem_cons.1 ht with rfl | ht
          · exact hs0
          · exact this.2 t ht
      · split at h
        · rename_i hc
          cases hg : subGo (off + a * s) ks sh st with
          | error e => rw [hg] at h; cases h
          | ok L =>
            rw [hg] at h
            simp only [Except.ok.injEq] at h
            subst h
            have h1 : 0 ≤ a * s := Int.mul_nonneg hc.1 hs0
            have := ih hg (by omega) (fun t ht => hs t (List.mem_cons_of_mem _ ht)) hf'
            refine ⟨this.1, ?_⟩
            intro t ht
            rcases List.mem_cons.1 ht with rfl | ht
            · exact Int.mul_nonneg hs0 hd
            · exact this.2 t ht
        · cases h
    | .at _, [], _ => simp [subGo] at h
    | .at _, _ :: _, [] => simp [subGo] at h
    | .range _ _ _, [], _ => simp [subGo] at h
    | .range _ _ _, _ :: _, [] => simp [subGo] at h

theorem sub_up {L T : Layout} {key : List AxKey} (h : L.sub key = .ok T) (hL : L.Up)
    (hf : Forward key) : T.Up := subGo_up h hL.1 hL.2 hf

/-- Moving the array moves the view. -/
theorem subGo_shift (t off : Int) (ks : List AxKey) (sh : List Nat) (st : List Int) :
    subGo (off + t) ks sh st = (subGo off ks sh st).map (fun L => ⟨L.off + t, L.shape, L.strides⟩) := by
  induction ks generalizing off sh st with
  | nil => rfl
  | cons k ks ih =>
    match k, sh, st with
    | .at i, n :: sh, s :: st =>
      simp only [subGo]
      split
      · rw [← ih]; congr 1; omega
      · rfl
    | .range a c d, n :: sh, s :: st =>
      simp only [subGo]
      split
      · rw [ih]
        cases subGo off ks sh st <;> rfl
      · split
        · have he : off + t + a * s = (off + a * s) + t := by omega
          rw [he, ih]
          cases subGo (off + a * s) ks sh st <;> rfl
        · rfl
    | .at _, [], _ => rfl
    | .at _, _ :: _, [] => rfl
    | .range _ _ _, [], _ => rfl
    | .range _ _ _, _ :: _, [] => rfl

/-- The items of a view are items of the array. -/
theorem subGo_elems {off : Int} {ks : List AxKey} {sh : List Nat} {st : List Int} {T : Layout}
    (h : subGo off ks sh st = .ok T) :
    ∀ o ∈ elemsGo T.off T.shape T.strides, o ∈ elemsGo off sh st := by
  induction ks generalizing off sh st T with
  | nil =>
    simp only [subGo, Except.ok.injEq] at h
    subst h
    exact fun o ho => ho
  | cons k ks ih =>
    match k, sh, st with
    | .at i, n :: sh, s :: st =>
      simp only [subGo] at h
      split at h
      · rename_i hc
        intro o ho
        have := ih h o ho
        simp only [elemsGo, List.mem_flatMap, List.mem_range]
        have hn : (n : Int) ≠ 0 := by omega
        have h1 := Int.emod_nonneg i hn
        have h2 := Int.emod_lt_of_pos i (show (0 : Int) < n by omega)
        refine ⟨(i % (n : Int)).toNat, by omega, ?_⟩
        rw [Int.toNat_of_nonneg h1]
        exact this
      · cases h
    | .range a c d, n :: sh, s :: st =>
      simp only [subGo] at h
      split at h
      · cases hg : subGo off ks sh st with
        | error e => rw [hg] at h; cases h
        | ok L =>
          rw [hg] at h
          simp only [Except.ok.injEq] at h
          subst h
          intro o ho
          simp [elemsGo] at ho
      · split at h
        · rename_i hc0 hc
          cases hg : subGo (off + a * s) ks sh st with
          | error e => rw [hg] at h; cases h
          | ok L =>
            rw [hg] at h
            simp only [Except.ok.injEq] at h
            subst h
            intro o ho
            simp only [elemsGo, List.mem_flatMap, List.mem_range] at ho ⊢
            obtain ⟨i, hi, ho⟩ := ho
            have hsh := subGo_shift ((i : Int) * (s * d)) (off + a * s) ks sh st
            rw [hg] at hsh
            have := ih hsh o ho
            have hb : 0 ≤ a + i * d ∧ a + i * d < n := by
              rcases Int.le_total 0 d with hd | hd
              · have h1 : 0 ≤ (i : Int) * d := Int.mul_nonneg (by omega) hd
                have h2 : (i : Int) * d ≤ ((c : Int) - 1) * d :=
                  Int.mul_le_mul_of_nonneg_right (by omega) hd
                omega
              · have h1 : (i : Int) * d ≤ 0 := Int.mul_nonpos_of_nonneg_of_nonpos (by omega) hd
                have h2 : ((c : Int) - 1) * d ≤ (i : Int) * d :=
                  Int.mul_le_mul_of_nonpos_right (by omega) hd
                omega
            refine ⟨(a + i * d).toNat, by omega, ?_⟩
            rw [Int.toNat_of_nonneg hb.1]
            have he : off + (a + i * d) * s = off + a * s + i * (s * d) := by ring
            rw [he]
            exact this
        · cases h
    | .at _, [], _ => simp [subGo] at h
    | .at _, _ :: _, [] => simp [subGo] at h
    | .range _ _ _, [], _ => simp [subGo] at h
    | .range _ _ _, _ :: _, [] => simp [subGo] at h

theorem sub_bytes {L T : Layout} {key : List AxKey} (item : Nat) (h : L.sub key = .ok T) :
    ∀ p ∈ T.bytes item, p ∈ L.bytes item := by
  intro p hp
  simp only [Layout.bytes, List.mem_flatMap] at hp ⊢
  obtain ⟨o, ho, hp⟩ := hp
  exact ⟨o, subGo_elems h o ho, hp⟩

/-- A single number of an array in C order is where its index says. -/
theorem subGo_single {item : Nat} {off : Int} {ks : List AxKey} {sh : List Nat} {T : Layout}
    (h : subGo off ks sh (cStrides item sh) = .ok T) (hT : T.shape = []) :
    T.off = off + ravelGo ks sh * item ∧ T.strides = [] := by
  induction ks generalizing off sh with
  | nil =>
    simp only [subGo, Except.ok.injEq] at h
    subst h
    simp only at hT
    subst hT
    simp [ravelGo, cStrides]
  | cons k ks ih =>
    match k, sh with
    | .at i, n :: sh =>
      simp only [subGo, cStrides] at h
      split at h
      · have := ih h
        simp only [ravelGo]
        refine ⟨?_, this.2⟩
        rw [this.1]
        push_cast
        ring
      · cases h
    | .range a c d, n :: sh =>
      simp only [subGo, cStrides] at h
      split at h
      · split at h
        · simp only [Except.ok.injEq] at h; subst h; simp at hT
        · cases h
      · split at h
        · split at h
          · simp only [Except.ok.injEq] at h; subst h; simp at hT
          · cases h
        · cases h
    | .at _, [] => simp [subGo] at h
    | .range _ _ _, [] => simp [subGo] at h

/-! ### Memory -/

theorem writeBytes_length (mem : List Nat) (ps : List Int) (new : List Nat) :
    (writeBytes mem ps new).length = mem.length := by
  unfold writeBytes
  generalize ps.zip new = qs
  induction qs generalizing mem with
  | nil => rfl
  | cons q qs ih =>
    rw [List.foldl_cons, ih]
    split <;> simp

theorem writeBytes_getElem? {mem : List Nat} {ps : List Int} {new : List Nat} {p : Nat}
    (h : (p : Int) ∉ ps) : (writeBytes mem ps new)[p]? = mem[p]? := by
  unfold writeBytes
  have hq : ∀ q ∈ ps.zip new, q.1 ≠ (p : Int) := by
    intro q hq he
    exact h (he ▸ (List.of_mem_zip hq).1)
  generalize ps.zip new = qs at hq
  induction qs generalizing mem with
  | nil => rfl
  | cons q qs ih =>
    rw [List.foldl_cons, ih (fun q' hq' => hq q' (List.mem_cons_of_mem _ hq'))]
    split
    · rw [List.getElem?_set_ne]
      have := hq q (by simp)
      omega
    · rfl

theorem reports_upd_left {d : Option (Int × Int)} {iv : Int × Int} {p : Nat} (h : Reports d p) :
    Reports (updDirty d iv) p := by
  obtain ⟨a, b, rfl, h1, h2⟩ := h
  exact ⟨_, _, rfl, by omega, by omega⟩

theorem reports_upd_right {d : Option (Int × Int)} {iv : Int × Int} {p : Nat}
    (h : iv.1 ≤ (p : Int) ∧ (p : Int) < iv.2) : Reports (updDirty d iv) p := by
  unfold updDirty
  split
  · exact ⟨_, _, rfl, h.1, h.2⟩
  · exact ⟨_, _, rfl, by omega, by omega⟩

/-- What a tracker holds after it is told a region: for each byte what it had or what the memory
has, and in the region what the memory has. -/
theorem mirrorSet_getElem? {mirror data : List Nat} (hl : mirror.length = data.length) {a b : Int}
    (ha : 0 ≤ a) (p : Nat) :
    (((mirrorSet mirror a (pySlice data a b))[p]? = data[p]?) ∨
      ((mirrorSet mirror a (pySlice data a b))[p]? = mirror[p]?)) ∧
    (a ≤ (p : Int) → (p : Int) < b → p < data.length →
      (mirrorSet mirror a (pySlice data a b))[p]? = data[p]?) := by
  obtain ⟨n, rfl⟩ := Int.eq_ofNat_of_zero_le ha
  have hca : (if ((n : Int)) < 0 then max 0 ((n : Int) + data.length)
      else min (n : Int) data.length).toNat = min n data.length := by
    rw [if_neg (by omega)]; omega
  unfold pySlice
  simp only [hca]
  generalize hcb : (if b < 0 then max 0 (b + (data.length : Int)) else min b data.length).toNat = m
  have hm : m ≤ data.length := by rw [← hcb]; split <;> omega
  have hmb : (p : Int) < b → p < data.length → p < m := by
    intro h1 h2; rw [← hcb, if_neg (by omega)]; omega
  have hlen : ((data.take m).drop (min n data.length)).length = m - n := by
    rw [List.length_drop, List.length_take]; omega
  unfold mirrorSet
  simp only [Int.toNat_natCast]
  rw [List.take_of_length_le (l := (data.take m).drop _) (by rw [hlen]; omega), List.append_assoc]
  by_cases h1 : p < n
  · have : (mirror.take n ++ ((data.take m).drop (min n data.length) ++
        mirror.drop (n + ((data.take m).drop (min n data.length)).length)))[p]? = mirror[p]? := by
      by_cases hp : p < mirror.length
      · rw [List.getElem?_append_left (by rw [List.length_take]; omega), List.getElem?_take, if_pos h1]
      · have hx : (mirror.take n).length = mirror.length := by rw [List.length_take]; omega
        rw [List.getElem?_eq_none (l := mirror) (by omega), List.getElem?_eq_none]
        simp only [List.length_append, hlen, List.length_drop, hx]
        omega
    exact ⟨Or.inr this, fun h => by omega⟩
  · by_cases hn : n ≤ mirror.length
    · have hx : (mirror.take n).length = n := by rw [List.length_take]; omega
      rw [List.getElem?_append_right (by omega), hx]
      by_cases h2 : p < m
      · have : ((data.take m).drop (min n data.length) ++
          mirror.drop (n + ((data.take m).drop (min n data.length)).length))[p - n]? = data[p]? := by
          rw [List.getElem?_append_left (by omega), List.getElem?_drop, List.getElem?_take,
            if_pos (by omega)]
          congr 1
          omega
        exact ⟨Or.inl this, fun _ _ _ => this⟩
      · have : ((data.take m).drop (min n data.length) ++
          mirror.drop (n + ((data.take m).drop (min n data.length)).length))[p - n]? =
            mirror[p]? := by
          rw [List.getElem?_append_right (by omega), List.getElem?_drop]
          congr 1
          omega
        exact ⟨Or.inr this, fun h3 h4 h5 => absurd (hmb h4 h5) h2⟩
    · have : (mirror.take n ++ ((data.take m).drop (min n data.length) ++
          mirror.drop (n + ((data.take m).drop (min n data.length)).length)))[p]? = mirror[p]? := by
        rw [List.getElem?_eq_none (l := mirror) (by omega), List.getElem?_eq_none]
        simp only [List.length_append, hlen, List.length_drop, List.length_take]
        omega
      exact ⟨Or.inr this, fun h3 h4 h5 => absurd (hmb h4 h5) (by omega)⟩

theorem mirrorSet_length {mirror data : List Nat} (hl : mirror.length = data.length) {a b : Int}
    (ha : 0 ≤ a) : (mirrorSet mirror a (pySlice data a b)).length = data.length := by
  apply Nat.le_antisymm
  · by_contra hc
    have h := (mirrorSet_getElem? hl (b := b) ha data.length).1
    rw [List.getElem?_eq_getElem (by omega), List.getElem?_eq_none (l := data) (by omega),
      List.getElem?_eq_none (l := mirror) (by omega)] at h
    simp at h
  · by_contra hc
    have h := (mirrorSet_getElem? hl (b := b) ha (mirrorSet mirror a (pySlice data a b)).length).1
    rw [List.getElem?_eq_none (Nat.le_refl _), List.getElem?_eq_getElem (l := data) (by omega),
      List.getElem?_eq_getElem (l := mirror) (by omega)] at h
    simp at h

/-- A tracker that differs from the memory in a region only, and is told it, is the memory. -/
theorem mirrorSet_eq {mirror data : List Nat} (hl : mirror.length = data.length) {a b : Int}
    (ha : 0 ≤ a)
    (h : ∀ p : Nat, p < data.length → data[p]? ≠ mirror[p]? → a ≤ (p : Int) ∧ (p : Int) < b) :
    mirrorSet mirror a (pySlice data a b) = data := by
  apply List.ext_getElem?
  intro p
  by_cases hp : p < data.length
  · by_cases hd : data[p]? = mirror[p]?
    · rcases (mirrorSet_getElem? hl (b := b) ha p).1 with h1 | h1
      · exact h1
      · rw [h1, hd]
    · exact (mirrorSet_getElem? hl ha p).2 (h p hp hd).1 (h p hp hd).2 hp
  · rw [List.getElem?_eq_none (by rw [mirrorSet_length hl ha]; omega),
      List.getElem?_eq_none (by omega)]

/-- The array itself goes forward. -/
theorem owner_up (s : ArrState) : s.owner.Up :=
  ⟨Int.le_refl 0, cStrides_nonneg s.item s.shape⟩

/-- The bytes of an array in C order are consecutive. -/
theorem mem_bytes_cStrides {item : Nat} (hi : 0 < item) (sh : List Nat) (off p : Int) :
    p ∈ (Layout.mk off sh (cStrides item sh)).bytes item ↔
      off ≤ p ∧ p < off + ((sh.prod * item : Nat) : Int) := by
  simp only [Layout.bytes, List.mem_flatMap, List.mem_map, List.mem_range]
  induction sh generalizing off with
  | nil =>
    simp only [cStrides, elemsGo, List.mem_singleton, exists_eq_left, List.prod_nil, Nat.one_mul]
    constructor
    · rintro ⟨b, hb, rfl⟩; omega
    · rintro ⟨h1, h2⟩; exact ⟨(p - off).toNat, by omega, by omega⟩
  | cons n sh ih =>
    simp only [cStrides, elemsGo, List.mem_flatMap, List.mem_range, List.prod_cons]
    generalize hP : ((sh.prod * item : Nat) : Int) = P at ih ⊢
    have hP0 : 0 ≤ P := by omega
    have hnP : ((n * sh.prod * item : Nat) : Int) = n * P := by
      rw [← hP, Nat.mul_assoc]; push_cast; rfl
    rw [hnP]
    constructor
    · rintro ⟨o, ⟨i, hin, ho⟩, b, hb, rfl⟩
      have := (ih (off + i * P)).1 ⟨o, ho, b, hb, rfl⟩
      have h1 : 0 ≤ (i : Int) * P := Int.mul_nonneg (by omega) hP0
      have h2 : ((i : Int) + 1) * P ≤ n * P := Int.mul_le_mul_of_nonneg_right (by omega) hP0
      have h3 : ((i : Int) + 1) * P = i * P + P := by ring
      omega
    · rintro ⟨h1, h2⟩
      have hPp : 0 < P := by
        rcases Int.lt_or_eq_of_le hP0 with h | h
        · exact h
        · rw [← h] at h2; simp at h2; omega
      have hq0 : 0 ≤ (p - off) / P := Int.ediv_nonneg (by omega) hP0
      have hqn : (p - off) / P < n := Int.ediv_lt_of_lt_mul hPp (by omega)
      have hdm := Int.mul_ediv_add_emod (p - off) P
      have hm0 := Int.emod_nonneg (p - off) (show P ≠ 0 by omega)
      have hml := Int.emod_lt_of_pos (p - off) hPp
      have hcomm : P * ((p - off) / P) = (p - off) / P * P := Int.mul_comm _ _
      obtain ⟨o, ho, b, hb, hob⟩ := (ih (off + (p - off) / P * P)).2 ⟨by omega, by omega⟩
      refine ⟨o, ⟨((p - off) / P).toNat, by omega, ?_⟩, b, hb, hob⟩
      rw [Int.toNat_of_nonneg hq0]
      exact ho

/-- The bytes of the array itself. -/
theorem owner_bytes {s : ArrState} {p : Int} (hp : p ∈ s.owner.bytes s.item) :
    0 ≤ p ∧ p < ((s.shape.prod * s.item : Nat) : Int) := by
  have hi : 0 < s.item := by
    simp only [Layout.bytes, List.mem_flatMap, List.mem_map, List.mem_range] at hp
    obtain ⟨_, _, b, hb, _⟩ := hp
    omega
  have := (mem_bytes_cStrides hi s.shape 0 p).1 hp
  omega

/-- What an assignment marks holds the bytes it modifies. -/
theorem mark_cover {item : Nat} {L T : Layout} {key : List AxKey} {p : Int}
    (hs : L.sub key = .ok T) (hT : T.Up)
    (h1 : T.shape = [] → L.off = 0 ∧ L.strides = cStrides item L.shape)
    (hp : p ∈ T.bytes item) : (markOf item L key T).1 ≤ p ∧ p < (markOf item L key T).2 := by
  unfold markOf
  split
  · rename_i hsh
    obtain ⟨h0, hst⟩ := h1 hsh
    unfold Layout.sub at hs
    rw [hst, h0] at hs
    have := subGo_single hs hsh
    simp only [Layout.bytes, hsh, this.2, elemsGo, List.flatMap_cons, List.flatMap_nil,
      List.append_nil, List.mem_map, List.mem_range] at hp
    obtain ⟨b, hb, rfl⟩ := hp
    rw [this.1]
    constructor <;> simp only <;> omega
  · exact bytes_cover hT.2 hp

theorem mark_nonneg {item : Nat} {L T : Layout} {key : List AxKey} 
    (hs : L.sub key = .ok T) (hT : T.Up)
    (h1 : T.shape = [] → L.off = 0 ∧ L.strides = cStrides item L.shape) :
    0 ≤ (markOf item L key T).1 := by
  unfold markOf
  split
  · rename_i hsh
    obtain ⟨h0, hst⟩ := h1 hsh
    unfold Layout.sub at hs
    rw [hst, h0] at hs
    have := subGo_single hs hsh
    have h2 := hT.1
    simp only
    omega
  · exact hT.1

/-- The start of the region is not negative. -/
def DirtyNonneg (d : Option (Int × Int)) : Prop := ∀ a b, d = some (a, b) → 0 ≤ a

theorem dirtyNonneg_upd {d : Option (Int × Int)} {iv : Int × Int} (h : DirtyNonneg d)
    (hi : 0 ≤ iv.1) : DirtyNonneg (updDirty d iv) := by
  unfold updDirty
  split
  · intro a b he
    simp only [Option.some.injEq] at he
    rw [he] at hi
    exact hi
  · rename_i a' b'
    intro a b he
    simp only [Option.some.injEq, Prod.mk.injEq] at he
    have := h a' b' rfl
    omega

/-- All views go forward. -/
def ViewsUp (s : ArrState) : Prop := ∀ v ∈ s.views, v.layout.Up

theorem layout_up {s : ArrState} (h : ViewsUp s) {r : ArrRef} {L : Layout}
    (hl : s.layout r = some L) : L.Up := by
  cases r with
  | owner =>
    simp only [ArrState.layout, Option.some.injEq] at hl
    subst hl
    exact owner_up s
  | view i =>
    simp only [ArrState.layout, Option.map_eq_some_iff] at hl
    obtain ⟨v, hv, rfl⟩ := hl
    exact h v (List.mem_of_getElem? hv)

/-- What an operation does to the memory and to the region when there is no tracker. -/
theorem arrStep_marks {s : ArrState} {op : ArrOp} (ht : s.tracker = false) (hv : ViewsUp s)
    (hm : Marks s op) :
    ViewsUp (arrStep s op).1 ∧ (arrStep s op).1.tracker = false ∧
    (op ≠ .clear → ∀ p : Nat, (Reports s.dirty p → Reports (arrStep s op).1.dirty p) ∧
      ((arrStep s op).1.mem[p]? ≠ s.mem[p]? → Reports (arrStep s op).1.dirty p)) := by
  cases op with
  | clear => exact ⟨hv, ht, fun h => absurd rfl h⟩
  | idiv dst new => exact hm.elim
  | view src key =>
    unfold arrStep
    simp only
    cases hl : s.layout src with
    | none => exact ⟨hv, ht, fun _ p => ⟨id, fun h => absurd rfl h⟩⟩
    | some L =>
      simp only
      cases hs : L.sub key with
      | error e => exact ⟨hv, ht, fun _ p => ⟨id, fun h => absurd rfl h⟩⟩
      | ok T =>
        simp only
        split
        · exact ⟨hv, ht, fun _ p => ⟨id, fun h => absurd rfl h⟩⟩
        · refine ⟨?_, ht, fun _ p => ⟨id, fun h => absurd rfl h⟩⟩
          intro v hvm
          simp only [List.mem_append, List.mem_singleton] at hvm
          rcases hvm with hvm | rfl
          · exact hv v hvm
          · exact sub_up hs (layout_up hv hl) hm
  | iadd dst new =>
    unfold arrStep
    simp only
    cases hl : s.layout dst with
    | none => exact ⟨hv, ht, fun _ p => ⟨id, fun h => absurd rfl h⟩⟩
    | some L =>
      have hup := layout_up hv hl
      simp only
      split
      · refine ⟨hv, ht, fun _ p => ⟨reports_upd_left, fun h => ?_⟩⟩
        have hp : (p : Int) ∈ L.bytes s.item := by
          by_contra hc
          exact h (writeBytes_getElem? hc)
        cases dst with
        | view i => exact reports_upd_right (bytes_cover hup.2 hp)
        | owner =>
          simp only [ArrState.layout, Option.some.injEq] at hl
          subst hl
          exact reports_upd_right (owner_bytes hp)
      · exact ⟨hv, ht, fun _ p => ⟨reports_upd_left, fun h => absurd rfl h⟩⟩
  | write dst key new =>
    unfold arrStep
    simp only
    cases hl : s.layout dst with
    | none => exact ⟨hv, ht, fun _ p => ⟨id, fun h => absurd rfl h⟩⟩
    | some L =>
      have hup := layout_up hv hl
      simp only
      cases hs : L.sub key with
      | error e => exact ⟨hv, ht, fun _ p => ⟨id, fun h => absurd rfl h⟩⟩
      | ok T =>
        have hT := sub_up hs hup hm.1
        simp only
        split
        · simp only [ht, Bool.false_eq_true, if_false]
          refine ⟨hv, trivial, fun _ p => ⟨reports_upd_left, fun h => ?_⟩⟩
          have hp : (p : Int) ∈ T.bytes s.item := by
            by_contra hc
            exact h (writeBytes_getElem? hc)
          refine reports_upd_right (mark_cover hs hT ?_ hp)
          intro hsh
          cases dst with
          | owner =>
            simp only [ArrState.layout, Option.some.injEq] at hl
            subst hl
            exact ⟨rfl, rfl⟩
          | view i =>
            have := hm.2
            simp only [SingleByOwner, hl, hs] at this
            exact absurd hsh this
        · exact ⟨hv, ht, fun _ p => ⟨reports_upd_left, fun h => absurd rfl h⟩⟩

/-- The smallest offset, up to empty axes. -/
def lowGo : List Nat → List Int → Int
  | n :: sh, s :: st => min 0 (((n - 1 : Nat) : Int) * s) + lowGo sh st
  | _, _ => 0

theorem lowGo_nonpos (sh : List Nat) (st : List Int) : lowGo sh st ≤ 0 := by
  induction sh generalizing st with
  | nil => simp [lowGo]
  | cons n sh ih =>
    cases st with
    | nil => simp [lowGo]
    | cons s st => have := ih st; simp only [lowGo]; omega

theorem mul_ge_min {x m s : Int} (h0 : 0 ≤ x) (h1 : x ≤ m) : min 0 (m * s) ≤ x * s := by
  rcases Int.le_total 0 s with hs | hs
  · have := Int.mul_nonneg h0 hs; omega
  · have := Int.mul_le_mul_of_nonpos_right h1 hs; omega

theorem subGo_low {off : Int} {ks : List AxKey} {sh : List Nat} {st : List Int} {T : Layout}
    (h : subGo off ks sh st = .ok T) : off + lowGo sh st ≤ T.off + lowGo T.shape T.strides := by
  induction ks generalizing off sh st T with
  | nil =>
    simp only [subGo, Except.ok.injEq] at h
    subst h
    exact Int.le_refl _
  | cons k ks ih =>
    match k, sh, st with
    | .at i, n :: sh, s :: st =>
      simp only [subGo] at h
      split at h
      · rename_i hc
        have := ih h
        have h1 := Int.emod_nonneg i (show (n : Int) ≠ 0 by omega)
        have h2 := Int.emod_lt_of_pos i (show (0 : Int) < n by omega)
        have := mul_ge_min (s := s) h1 (show i % (n : Int) ≤ ((n - 1 : Nat) : Int) by omega)
        simp only [lowGo]
        omega
      · cases h
    | .range a c d, n :: sh, s :: st =>
      simp only [subGo] at h
      split at h
      · cases hg : subGo off ks sh st with
        | error e => rw [hg] at h; cases h
        | ok L =>
          rw [hg] at h
          simp only [Except.ok.injEq] at h
          subst h
          have := ih hg
          simp only [lowGo, Nat.zero_sub, Int.natCast_zero, Int.zero_mul]
          omega
      · split at h
        · rename_i hc0 hc
          cases hg : subGo (off + a * s) ks sh st with
          | error e => rw [hg] at h; cases h
          | ok L =>
            rw [hg] at h
            simp only [Except.ok.injEq] at h
            subst h
            have := ih hg
            have h1 := mul_ge_min (s := s) hc.1 (show a ≤ ((n - 1 : Nat) : Int) by omega)
            have h2 := mul_ge_min (s := s) hc.2.2.1
              (show a + (c - 1) * d ≤ ((n - 1 : Nat) : Int) by omega)
            have h3 : (a + (c - 1) * d) * s = a * s + ((c - 1 : Nat) : Int) * (s * d) := by
              rw [show ((c - 1 : Nat) : Int) = (c : Int) - 1 by omega]; ring
            simp only [lowGo]
            omega
        · cases h
    | .at _, [], _ => simp [subGo] at h
    | .at _, _ :: _, [] => simp [subGo] at h
    | .range _ _ _, [], _ => simp [subGo] at h
    | .range _ _ _, _ :: _, [] => simp [subGo] at h

/-- The layout begins within the memory. -/
def Layout.Low (L : Layout) : Prop := 0 ≤ L.off + lowGo L.shape L.strides

theorem Layout.Low.off {L : Layout} (h : L.Low) : 0 ≤ L.off := by
  have := lowGo_nonpos L.shape L.strides
  unfold Layout.Low at h
  omega

theorem sub_low {L T : Layout} {key : List AxKey} (h : L.sub key = .ok T) (hL : L.Low) : T.Low :=
  Int.le_trans hL (subGo_low h)

theorem lowGo_up (sh : List Nat) (st : List Int) (h : ∀ s ∈ st, 0 ≤ s) : lowGo sh st = 0 := by
  induction sh generalizing st with
  | nil => simp [lowGo]
  | cons n sh ih =>
    cases st with
    | nil => simp [lowGo]
    | cons s st =>
      have h1 := ih st (fun t ht => h t (List.mem_cons_of_mem _ ht))
      have h2 : 0 ≤ ((n - 1 : Nat) : Int) * s := Int.mul_nonneg (by omega) (h s (by simp))
      simp only [lowGo]
      omega

theorem owner_low (s : ArrState) : s.owner.Low := by
  unfold Layout.Low
  rw [lowGo_up _ _ (owner_up s).2]
  exact Int.le_refl 0

theorem ravelGo_nonneg {off : Int} {ks : List AxKey} {sh : List Nat} {st : List Int} {T : Layout}
    (h : subGo off ks sh st = .ok T) : 0 ≤ ravelGo ks sh := by
  induction ks generalizing off sh st T with
  | nil => simp [ravelGo]
  | cons k ks ih =>
    match k, sh, st with
    | .at i, n :: sh, s :: st =>
      simp only [subGo] at h
      split at h
      · have h1 := Int.emod_nonneg i (show (n : Int) ≠ 0 by omega)
        have h2 : 0 ≤ i % (n : Int) * ((sh.prod : Nat) : Int) := Int.mul_nonneg h1 (by omega)
        have := ih h
        simp only [ravelGo]
        omega
      · cases h
    | .range a c d, n :: sh, s :: st => simp [ravelGo]
    | .at _, [], _ => simp [ravelGo]
    | .at _, _ :: _, [] => simp [subGo] at h
    | .range _ _ _, [], _ => simp [ravelGo]
    | .range _ _ _, _ :: _, [] => simp [ravelGo]

theorem mark_low {item : Nat} {L T : Layout} {key : List AxKey} (hs : L.sub key = .ok T)
    (hL : L.Low) : 0 ≤ (markOf item L key T).1 := by
  unfold markOf
  split
  · exact Int.mul_nonneg (ravelGo_nonneg hs) (by omega)
  · exact (sub_low hs hL).off

theorem along_append {P : ArrState → ArrOp → Prop} {s : ArrState} {xs ys : List ArrOp} :
    Along P s (xs ++ ys) ↔ Along P s xs ∧ Along P (arrRun s xs) ys := by
  induction xs generalizing s with
  | nil => simp [Along, arrRun]
  | cons x xs ih =>
    simp only [List.cons_append, Along, ih, arrRun, List.foldl_cons, and_assoc]

end Verif
