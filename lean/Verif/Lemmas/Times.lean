import Verif.Spec.Times
import Verif.Lemmas.Rounded
import Mathlib.Tactic.Linarith
import Mathlib.Tactic.NormNum
import Mathlib.Tactic.Positivity
/-
Lemmas on the times of commands.
-/

namespace Verif

theorem nearestInt_eq {x : ℚ} {n : Int} (h : |x - n| < 1 / 2) : nearestInt x = n := by
  rw [abs_lt] at h
  by_cases hx : (n : ℚ) ≤ x
  · have hf : ⌊x⌋ = n := by
      rw [Int.floor_eq_iff]
      constructor <;> linarith
    have : Int.fract x < 1 / 2 := by
      unfold Int.fract
      rw [hf]
      linarith
    rw [nearestInt, if_pos this, hf]
  · have hf : ⌊x⌋ = n - 1 := by
      rw [Int.floor_eq_iff]
      push_cast
      constructor <;> linarith
    have : 1 / 2 < Int.fract x := by
      unfold Int.fract
      rw [hf]
      push_cast
      linarith
    unfold nearestInt
    rw [if_neg (by linarith), if_pos this, hf]
    omega

theorem fl_part {fl : ℚ → ℚ} (hfl : RoundsTo53 fl) (u : Nat) (hu : u < 1000000) :
    |fl ((u : ℚ) / 1000000) - (u : ℚ) / 1000000| ≤ 1 / 2 ^ 53 ∧ 0 ≤ fl ((u : ℚ) / 1000000) ∧
      fl ((u : ℚ) / 1000000) < 1 := by
  have h := hfl ((u : ℚ) / 1000000)
  have h0 : (0 : ℚ) ≤ (u : ℚ) / 1000000 := by positivity
  have h1 : (u : ℚ) / 1000000 ≤ 999999 / 1000000 := by
    have : (u : ℚ) ≤ 999999 := by exact_mod_cast (by omega : u ≤ 999999)
    linarith
  rw [abs_of_nonneg h0] at h
  refine ⟨h.trans (by linarith), ?_, ?_⟩
  · have := (abs_le.1 h).1
    have h2 : (u : ℚ) / 1000000 / 2 ^ 53 ≤ (u : ℚ) / 1000000 := by
      apply div_le_self h0
      norm_num
    linarith
  · have := (abs_le.1 h).2
    have h2 : (u : ℚ) / 1000000 / 2 ^ 53 ≤ (999999 / 1000000) / 2 ^ 53 := by
      apply div_le_div_of_nonneg_right h1
      norm_num
    norm_num at h2
    linarith

theorem listed_stamp {fl : ℚ → ℚ} (hfl : RoundsTo53 fl) {now : Nat} (h : Before2106 now) :
    listedTime fl (stampOf fl now) = now := by
  obtain ⟨ha, ha0, ha1⟩ := fl_part hfl (now % 1000000) (Nat.mod_lt _ (by norm_num))
  have hs : ((now / 1000000 : Nat) : ℚ) ≤ 2 ^ 32 - 1 := by
    have : now / 1000000 ≤ 2 ^ 32 - 1 := by
      unfold Before2106 at h
      omega
    have : ((now / 1000000 : Nat) : ℚ) ≤ ((2 ^ 32 - 1 : Nat) : ℚ) := by exact_mod_cast this
    refine this.trans (by norm_num)
  have hs0 : (0 : ℚ) ≤ ((now / 1000000 : Nat) : ℚ) := by positivity
  have hnow : (now : ℚ) = ((now / 1000000 : Nat) : ℚ) * 1000000 + ((now % 1000000 : Nat) : ℚ) := by
    exact_mod_cast (by omega : now = now / 1000000 * 1000000 + now % 1000000)
  unfold stampOf
  generalize fl (((now % 1000000 : Nat) : ℚ) / 1000000) = a at ha ha0 ha1
  generalize ((now / 1000000 : Nat) : ℚ) = s at hs hs0 hnow
  generalize ((now % 1000000 : Nat) : ℚ) = u at ha hnow
  have ht := hfl (s + a)
  rw [abs_of_nonneg (by linarith : 0 ≤ s + a)] at ht
  have ht' : (s + a) / 2 ^ 53 ≤ 1 / 2 ^ 21 := by
    have : (s + a) / 2 ^ 53 ≤ 2 ^ 32 / 2 ^ 53 := by
      apply div_le_div_of_nonneg_right _ (by norm_num)
      linarith
    refine this.trans (by norm_num)
  have ht0 : 0 ≤ fl (s + a) := by
    have := (abs_le.1 ht).1
    have h2 : (s + a) / 2 ^ 53 ≤ s + a := div_le_self (by linarith) (by norm_num)
    linarith
  generalize fl (s + a) = t at ht ht0
  unfold listedTime wholePart
  rw [if_pos ht0]
  have hk0 : (⌊t⌋ : ℚ) ≤ t := Int.floor_le t
  have hk1 : t < ⌊t⌋ + 1 := Int.lt_floor_add_one t
  have hx := hfl ((t - ⌊t⌋) * 1000000)
  rw [abs_of_nonneg (by nlinarith : 0 ≤ (t - ⌊t⌋) * 1000000)] at hx
  have hx' : (t - ⌊t⌋) * 1000000 / 2 ^ 53 ≤ 1000000 / 2 ^ 53 := by
    apply div_le_div_of_nonneg_right _ (by norm_num)
    linarith
  have hn : nearestInt (fl ((t - ⌊t⌋) * 1000000)) = (now : Int) - ⌊t⌋ * 1000000 := by
    apply nearestInt_eq
    push_cast
    rw [hnow]
    have h1 := abs_le.1 ha
    have h2 := abs_le.1 ht
    have h3 := abs_le.1 hx
    generalize fl ((t - ⌊t⌋) * 1000000) = y at h3
    generalize (⌊t⌋ : ℚ) = k at h3 hx'
    norm_num at h1 h2 h3 ht' hx'
    rw [abs_lt]
    constructor <;> linarith
  rw [hn]
  omega

theorem stamp_mono {fl : ℚ → ℚ} (hfl : RoundsTo53 fl) (hm : Monotone fl) : Monotone (stampOf fl) := by
  intro a b hab
  unfold stampOf
  apply hm
  obtain ⟨-, ha0, ha1⟩ := fl_part hfl (a % 1000000) (Nat.mod_lt _ (by norm_num))
  obtain ⟨-, hb0, hb1⟩ := fl_part hfl (b % 1000000) (Nat.mod_lt _ (by norm_num))
  rcases Nat.lt_or_ge (a / 1000000) (b / 1000000) with h | h
  · have : ((a / 1000000 : Nat) : ℚ) + 1 ≤ ((b / 1000000 : Nat) : ℚ) := by exact_mod_cast h
    linarith
  · have e : a / 1000000 = b / 1000000 := by omega
    have : a % 1000000 ≤ b % 1000000 := by omega
    have h1 : fl (((a % 1000000 : Nat) : ℚ) / 1000000) ≤ fl (((b % 1000000 : Nat) : ℚ) / 1000000) := by
      apply hm
      apply div_le_div_of_nonneg_right _ (by norm_num)
      exact_mod_cast this
    rw [e]
    linarith

/-- What holds after every history. -/
structure StampInv (fl : ℚ → ℚ) (clock : Nat → Nat) (w : StampWorld) : Prop where
  cids : ∀ q, (w.queues q).Pairwise (fun a b => a.cid < b.cid)
  made : ∀ q, ∀ s ∈ w.queues q, 1 ≤ s.cid ∧ s.cid ≤ w.made
  stamps : ∀ q, ∀ s ∈ w.queues q, s.stamp = stampOf fl (clock (s.cid - 1))

theorem inv_push {fl : ℚ → ℚ} {clock : Nat → Nat} {w : StampWorld} (h : StampInv fl clock w) (q c : Nat) :
    StampInv fl clock { w with
      made := w.made + 1
      queues := setAt w.queues q (w.queues q ++ [⟨w.made + 1, stampOf fl (clock w.made), c⟩]) } := by
  constructor
  · intro r
    simp only [setAt]
    split
    · rw [List.pairwise_append]
      refine ⟨h.cids q, by simp, ?_⟩
      intro a ha b hb
      rw [List.mem_singleton] at hb
      subst hb
      have := (h.made q a ha).2
      show a.cid < w.made + 1
      omega
    · exact h.cids r
  · intro r s hs
    simp only [setAt] at hs
    split at hs
    · rw [List.mem_append, List.mem_singleton] at hs
      rcases hs with hs | rfl
      · have := h.made q s hs
        simp only
        omega
      · simp only
        omega
    · have := h.made r s hs
      simp only
      omega
  · intro r s hs
    simp only [setAt] at hs
    split at hs
    · rw [List.mem_append, List.mem_singleton] at hs
      rcases hs with hs | rfl
      · exact h.stamps q s hs
      · simp
    · exact h.stamps r s hs

theorem inv_clear {fl : ℚ → ℚ} {clock : Nat → Nat} {w : StampWorld} (h : StampInv fl clock w) (q : Nat) :
    StampInv fl clock { w with queues := setAt w.queues q [] } := by
  have hs : ∀ r, setAt w.queues q [] r = [] ∨ setAt w.queues q [] r = w.queues r := by
    intro r
    unfold setAt
    split
    · exact .inl rfl
    · exact .inr rfl
  constructor
  · intro r
    rcases hs r with e | e <;> simp only [e]
    · exact .nil
    · exact h.cids r
  · intro r s m
    rcases hs r with e | e <;> simp only [e] at m
    · cases m
    · exact h.made r s m
  · intro r s m
    rcases hs r with e | e <;> simp only [e] at m
    · cases m
    · exact h.stamps r s m

theorem inv_load {fl : ℚ → ℚ} {clock : Nat → Nat} (q : Nat) (es : List StampEntry) :
    ∀ {w : StampWorld}, StampInv fl clock w → StampInv fl clock (stampLoad fl clock w q es).1 := by
  induction es with
  | nil => intro w h; exact h
  | cons e es ih =>
    intro w h
    unfold stampLoad newStamped
    cases e.hasId with
    | true => exact ih (inv_push h q e.call)
    | false =>
      exact ⟨h.cids, fun r s m => ⟨(h.made r s m).1, (h.made r s m).2.trans (Nat.le_succ _)⟩, h.stamps⟩

theorem inv_stampStep {fl : ℚ → ℚ} {clock : Nat → Nat} {w : StampWorld} (h : StampInv fl clock w) (op : StampOp) :
    StampInv fl clock (stampStep fl clock w op).1 := by
  cases op with
  | call q c => exact inv_push h q c
  | empty q => exact inv_clear h q
  | save q f => exact ⟨h.cids, h.made, h.stamps⟩
  | put f es => exact ⟨h.cids, h.made, h.stamps⟩
  | load q f =>
    simp only [stampStep]
    cases w.files f with
    | none => exact h
    | some es => exact inv_load q es (inv_clear h q)

theorem inv_stampRun (fl : ℚ → ℚ) (clock : Nat → Nat) (ops : List StampOp) :
    StampInv fl clock (stampRun fl clock stampInit ops) := by
  have : ∀ w, StampInv fl clock w → StampInv fl clock (stampRun fl clock w ops) := by
    induction ops with
    | nil => intro w h; exact h
    | cons op ops ih => intro w h; exact ih _ (inv_stampStep h op)
  exact this _ ⟨fun _ => .nil, fun _ _ m => (nomatch m), fun _ _ m => (nomatch m)⟩

theorem stampLoad_all {fl : ℚ → ℚ} {clock : Nat → Nat} (q : Nat) (es : List StampEntry) (h : ∀ e ∈ es, e.hasId = true) :
    ∀ w : StampWorld, (stampLoad fl clock w q es).2 = true ∧
      (stampLoad fl clock w q es).1.queues q = w.queues q ++
        (es.zipIdx.map (fun p => ⟨w.made + p.2 + 1, stampOf fl (clock (w.made + p.2)), p.1.call⟩)) := by
  induction es with
  | nil => intro w; simp [stampLoad]
  | cons e es ih =>
    intro w
    have he := h e (by simp)
    unfold stampLoad newStamped
    rw [he]
    simp only [if_true]
    obtain ⟨h1, h2⟩ := ih (fun e m => h e (by simp [m]))
      { w with made := w.made + 1, queues := setAt w.queues q (w.queues q ++ [⟨w.made + 1, stampOf fl (clock w.made), e.call⟩]) }
    refine ⟨h1, ?_⟩
    rw [h2]
    simp only [setAt, if_true, List.append_assoc, List.singleton_append]
    congr 1
    rw [List.zipIdx_cons', List.map_cons, List.map_map]
    congr 1
    apply List.map_congr_left
    intro p _
    simp only [Function.comp, Prod.map, id]
    have e1 : w.made + 1 + p.2 = w.made + (p.2 + 1) := by omega
    rw [e1]

theorem stampLoad_other {fl : ℚ → ℚ} {clock : Nat → Nat} (q r : Nat) (hr : r ≠ q) (es : List StampEntry) :
    ∀ w : StampWorld, (stampLoad fl clock w q es).1.queues r = w.queues r := by
  induction es with
  | nil => intro w; rfl
  | cons e es ih =>
    intro w
    unfold stampLoad newStamped
    cases e.hasId with
    | false => rfl
    | true =>
      simp only [if_true]
      rw [ih]
      simp [setAt, hr]

theorem stampLoad_files {fl : ℚ → ℚ} {clock : Nat → Nat} (q : Nat) (es : List StampEntry) :
    ∀ w : StampWorld, (stampLoad fl clock w q es).1.files = w.files := by
  induction es with
  | nil => intro w; rfl
  | cons e es ih =>
    intro w
    unfold stampLoad newStamped
    cases e.hasId with
    | false => rfl
    | true =>
      simp only [if_true]
      rw [ih]

theorem keep_queue {fl : ℚ → ℚ} {clock : Nat → Nat} {q : Nat} (ops : List StampOp) (h : ∀ op ∈ ops, ¬ op.Clears q) :
    ∀ w : StampWorld, w.queues q <+: (stampRun fl clock w ops).queues q := by
  induction ops with
  | nil => intro w; exact List.prefix_refl _
  | cons op ops ih =>
    intro w
    have h1 := ih (fun o m => h o (by simp [m])) (stampStep fl clock w op).1
    refine List.IsPrefix.trans ?_ h1
    have ho := h op (by simp)
    cases op with
    | call r c =>
      simp only [stampStep, newStamped, if_true, setAt]
      split
      · subst_vars
        exact List.prefix_append _ _
      · exact List.prefix_refl _
    | empty r =>
      have : q ≠ r := fun e => ho e.symm
      simp [stampStep, setAt, this]
    | save r f => exact List.prefix_refl _
    | put f es => exact List.prefix_refl _
    | load r f =>
      have hr : q ≠ r := fun e => ho e.symm
      simp only [stampStep]
      cases w.files f with
      | none => exact List.prefix_refl _
      | some es =>
        simp only []
        rw [stampLoad_other r q hr]
        simp [setAt, hr]

theorem keep_file {fl : ℚ → ℚ} {clock : Nat → Nat} {f : Nat} (ops : List StampOp) (h : ∀ op ∈ ops, ¬ op.Writes f) :
    ∀ w : StampWorld, (stampRun fl clock w ops).files f = w.files f := by
  induction ops with
  | nil => intro w; rfl
  | cons op ops ih =>
    intro w
    refine (ih (fun o m => h o (by simp [m])) (stampStep fl clock w op).1).trans ?_
    have ho := h op (by simp)
    cases op with
    | call r c => rfl
    | empty r => rfl
    | save r g =>
      have : f ≠ g := fun e => ho e.symm
      simp [stampStep, setAt, this]
    | put g es =>
      have : f ≠ g := fun e => ho e.symm
      simp [stampStep, setAt, this]
    | load r g =>
      simp only [stampStep]
      cases w.files g with
      | none => rfl
      | some es => simp only [stampLoad_files]

/-- Numbers of 53 bits, rounded towards 0 after one more. -/
theorem chop_to53 : RoundsTo53 (chop 53) := by
  intro x
  have := chop_close 53 x
  rw [one_div, inv_mul_eq_div] at this
  exact this

end Verif
