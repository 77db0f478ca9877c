import Verif.Lemmas.NearBy
import Mathlib.Tactic.Linarith
import Mathlib.Tactic.NormNum
import Mathlib.Tactic.Positivity
import Mathlib.Tactic.FieldSimp
import Mathlib.Tactic.Ring
/-
Lemmas on measures with rounding.
-/

namespace Verif

/-- The same outcome, up to a relation of the values. -/
def ExRel {α β : Type} (R : α → β → Prop) : Except Err α → Except Err β → Prop
  | .ok a, .ok b => R a b
  | .error e, .error e' => e = e'
  | _, _ => False

/-- Numbers of values in a relation. -/
def TVal.Rel (R : ℚ → ℚ → Prop) : TVal → TVal → Prop
  | .num x, .num y => R x y
  | .vec xs, .vec ys => List.Forall₂ R xs ys
  | .mat k xs, .mat l ys => k = l ∧ List.Forall₂ (List.Forall₂ R) xs ys
  | _, _ => False

theorem forall2_map {α β γ δ : Type} {R : α → β → Prop} {S : γ → δ → Prop} {f : α → γ} {g : β → δ}
    (h : ∀ a b, R a b → S (f a) (g b)) {xs : List α} {ys : List β} (hx : List.Forall₂ R xs ys) :
    List.Forall₂ S (xs.map f) (ys.map g) := by
  induction hx with
  | nil => exact .nil
  | cons hab _ ih => exact .cons (h _ _ hab) ih

theorem forall2_self {α γ δ : Type} {S : γ → δ → Prop} {f : α → γ} {g : α → δ} (h : ∀ a, S (f a) (g a))
    (xs : List α) : List.Forall₂ S (xs.map f) (xs.map g) := by
  induction xs with
  | nil => exact .nil
  | cons a xs ih => exact .cons (h a) ih

theorem zipWith_rel {R S : ℚ → ℚ → Prop} (h : ∀ x x' y, R x x' → S (x * y) (x' * y)) {a a' : List ℚ}
    (ha : List.Forall₂ R a a') (b : List ℚ) :
    List.Forall₂ S (List.zipWith (· * ·) a b) (List.zipWith (· * ·) a' b) := by
  induction ha generalizing b with
  | nil => simp
  | cons hx _ ih =>
    cases b with
    | nil => simp
    | cons y b => exact .cons (h _ _ y hx) (ih b)

theorem bcast1_rel {R S : ℚ → ℚ → Prop} (h : ∀ x x' y, R x x' → S (x * y) (x' * y)) {a a' : List ℚ}
    (ha : List.Forall₂ R a a') (b : List ℚ) :
    ExRel (List.Forall₂ S) (bcast1 (· * ·) a b) (bcast1 (· * ·) a' b) := by
  have hl := ha.length_eq
  unfold bcast1
  rw [← hl]
  split
  · exact zipWith_rel h ha b
  · cases ha with
    | nil =>
      cases b with
      | nil => simp [ExRel]
      | cons y b =>
        cases b with
        | nil => simp [ExRel]
        | cons z b => simp [ExRel]
    | cons hx ht =>
      cases ht with
      | nil => exact forall2_self (fun y => h _ _ y hx) b
      | cons hx' ht' =>
        cases b with
        | nil => simp [ExRel]
        | cons y b =>
          cases b with
          | nil => exact forall2_map (fun x x' r => h x x' y r) (.cons hx (.cons hx' ht'))
          | cons z b => simp [ExRel]

theorem mapM_rel {α : Type} {S : List ℚ → List ℚ → Prop} {f g : α → Except Err (List ℚ)}
    (h : ∀ a, ExRel S (f a) (g a)) (xs : List α) : ExRel (List.Forall₂ S) (xs.mapM f) (xs.mapM g) := by
  induction xs with
  | nil => exact .nil
  | cons a xs ih =>
    rw [List.mapM_cons, List.mapM_cons]
    have ha := h a
    cases hf : f a <;> cases hg : g a <;> rw [hf, hg] at ha
    · exact ha
    · exact ha.elim
    · exact ha.elim
    · cases hf' : xs.mapM f <;> cases hg' : xs.mapM g <;> rw [hf', hg'] at ih
      · exact ih
      · exact ih.elim
      · exact ih.elim
      · exact .cons ha ih

theorem bcastRows_rel {R S : ℚ → ℚ → Prop} (h : ∀ x x' y, R x x' → S (x * y) (x' * y)) {a a' : List ℚ}
    (ha : List.Forall₂ R a a') (b : List (List ℚ)) :
    ExRel (List.Forall₂ (List.Forall₂ S)) (bcastRows (· * ·) [a] b) (bcastRows (· * ·) [a'] b) := by
  unfold bcastRows
  simp only [List.length_singleton]
  split
  · match b with
    | [] => exact .nil
    | y :: b =>
      have hz : ∀ c : List ℚ, List.zip [c] (y :: b) = [(c, y)] := fun c => by simp
      rw [hz, hz]
      have := bcast1_rel h ha y
      simp only [List.mapM_cons, List.mapM_nil]
      cases hf : bcast1 (· * ·) a y <;> cases hg : bcast1 (· * ·) a' y <;> rw [hf, hg] at this
      · exact this
      · exact this.elim
      · exact this.elim
      · exact .cons this .nil
  · exact mapM_rel (fun y => bcast1_rel h ha y) b

theorem scaleVal_rel {R S : ℚ → ℚ → Prop} (h : ∀ x x' y, R x x' → S (x * y) (x' * y)) {s s' : ℚ × ℚ × ℚ}
    (h1 : R s.1 s'.1) (h2 : R s.2.1 s'.2.1) (h3 : R s.2.2 s'.2.2) (v : TVal) :
    ExRel (TVal.Rel S) (scaleVal s v) (scaleVal s' v) := by
  have e2 : List.Forall₂ R [s.1, s.2.1] [s'.1, s'.2.1] := .cons h1 (.cons h2 .nil)
  have e3 : List.Forall₂ R [s.1, s.2.1, s.2.2] [s'.1, s'.2.1, s'.2.2] := .cons h1 (.cons h2 (.cons h3 .nil))
  have vec : ∀ {a a' : List ℚ}, List.Forall₂ R a a' → ∀ xs,
      ExRel (TVal.Rel S) (bcast (· * ·) (.vec a) (.vec xs)) (bcast (· * ·) (.vec a') (.vec xs)) := by
    intro a a' ha xs
    have := bcast1_rel h ha xs
    simp only [bcast]
    cases hf : bcast1 (· * ·) a xs <;> cases hg : bcast1 (· * ·) a' xs <;> rw [hf, hg] at this
    · exact this
    · exact this.elim
    · exact this.elim
    · exact this
  have mat : ∀ {a a' : List ℚ}, List.Forall₂ R a a' → ∀ k rows,
      ExRel (TVal.Rel S) (bcast (· * ·) (.vec a) (.mat k rows)) (bcast (· * ·) (.vec a') (.mat k rows)) := by
    intro a a' ha k rows
    have := bcastRows_rel h ha rows
    simp only [bcast, bcastMat, ha.length_eq]
    split
    · cases hf : bcastRows (· * ·) [a] rows <;> cases hg : bcastRows (· * ·) [a'] rows <;> rw [hf, hg] at this
      · exact this
      · exact this.elim
      · exact this.elim
      · exact ⟨rfl, this⟩
    · rfl
  cases v with
  | num x => exact h _ _ x h1
  | vec xs =>
    simp only [scaleVal]
    split
    · exact forall2_self (fun y => h _ _ y h1) xs
    · split
      · exact vec e2 xs
      · exact vec e3 xs
  | mat k rows =>
    simp only [scaleVal]
    split
    · exact ⟨rfl, forall2_self (fun r => forall2_self (fun y => h _ _ y h1) r) rows⟩
    · split
      · exact mat e2 k rows
      · exact mat e3 k rows
  | recs cols => rfl

theorem TVal.Rel.map {R S : ℚ → ℚ → Prop} {f g : ℚ → ℚ} (h : ∀ x y, R x y → S (f x) (g y)) {v w : TVal}
    (hv : TVal.Rel R v w) : TVal.Rel S (v.mapNums f) (w.mapNums g) := by
  cases v <;> cases w <;> simp only [TVal.Rel] at hv <;> simp only [TVal.mapNums, TVal.Rel]
  · exact h _ _ hv
  · exact forall2_map h hv
  · exact ⟨hv.1, forall2_map (fun _ _ r => forall2_map h r) hv.2⟩

theorem scaleBy_eq (c : ℚ) (v : TVal) : v.scaleBy c = v.mapNums (c * ·) := by cases v <;> rfl

theorem mapNums_id (v : TVal) : v.mapNums (fun x => x) = v := by
  cases v <;> simp [TVal.mapNums]

theorem TVal.Rel.imp {R S : ℚ → ℚ → Prop} (h : ∀ x y, R x y → S x y) {v w : TVal} (hv : TVal.Rel R v w) :
    TVal.Rel S v w := by
  have := hv.map (f := fun x => x) (g := fun x => x) h
  rwa [mapNums_id, mapNums_id] at this

section
variable {u : ℚ} {fl : ℚ → ℚ} (h0 : 0 ≤ u) (h1 : u < 1) (hfl : ∀ x, |fl x - x| ≤ u * |x|)
include h0 h1 hfl

theorem factor_near (d : ℚ) (un : MUnit) : NearBy u 4 (un.factor d) (un.factorRounded fl d) := by
  have r := fun x => NearBy.refl h0 h1 x
  have c := (r (254 / 100)).round h0 h1 hfl
  cases un with
  | pixel => exact (r 1).mono h0 h1 (by omega)
  | inch => exact (r d).mono h0 h1 (by omega)
  | point => exact ((r (d / 72)).round h0 h1 hfl).mono h0 h1 (by omega)
  | centimeter => exact ((((r d).div h0 h1 c)).round h0 h1 hfl).mono h0 h1 (by omega)
  | millimeter =>
    exact ((((((r (1 / 10)).round h0 h1 hfl).mul h0 h1 (r d)).round h0 h1 hfl).div h0 h1 c).round h0 h1 hfl).mono
      h0 h1 (by omega)
  | meter => exact ((((r (1000 * d)).round h0 h1 hfl).div h0 h1 c).round h0 h1 hfl).mono h0 h1 (by omega)
  | kilometer => exact ((((r (100000 * d)).round h0 h1 hfl).div h0 h1 c).round h0 h1 hfl).mono h0 h1 (by omega)

theorem scale_near (m : MVars) :
    ExRel (fun s s' => NearBy u 3 s.1 s'.1 ∧ NearBy u 3 s.2.1 s'.2.1 ∧ NearBy u 3 s.2.2 s'.2.2)
      m.scale (m.scaleRounded fl) := by
  have r := fun x => NearBy.refl h0 h1 x
  have key : ∀ (ex ex' w : ℚ), NearBy u 1 ex ex' → NearBy u 3 (ex * (1 / w)) (fl (ex' * fl (1 / w))) :=
    fun ex ex' w h => (h.mul h0 h1 ((r (1 / w)).round h0 h1 hfl)).round h0 h1 hfl
  have one : NearBy u 1 1 1 := (r 1).mono h0 h1 (by omega)
  have z : NearBy u 3 0 0 := (r 0).mono h0 h1 (by omega)
  have fin : ∀ (w0 hh0 ex ey ex' ey' : ℚ), NearBy u 1 ex ex' → NearBy u 1 ey ey' →
      m.extent = some (w0, hh0, ex, ey) → m.extentRounded fl = some (w0, hh0, ex', ey') →
      ExRel (fun s s' => NearBy u 3 s.1 s'.1 ∧ NearBy u 3 s.2.1 s'.2.1 ∧ NearBy u 3 s.2.2 s'.2.2)
        m.scale (m.scaleRounded fl) := by
    intro w0 hh0 ex ey ex' ey' hx hy e e'
    unfold MVars.scale MVars.scaleRounded
    simp only [e, e']
    split
    · rfl
    · exact ⟨key ex ex' _ hx, key ey ey' _ hy, z⟩
  cases hd : m.dpi with
  | some d =>
    exact fin 1 1 1 1 1 1 one one (by simp only [MVars.extent, hd]) (by simp only [MVars.extentRounded, hd])
  | none =>
    cases hv : m.viewport with
    | some p =>
      exact fin p.width p.height _ _ _ _ ((r (p.xmax - p.xmin)).round h0 h1 hfl) ((r (p.ymax - p.ymin)).round h0 h1 hfl)
        (by simp only [MVars.extent, hd, hv]) (by simp only [MVars.extentRounded, hd, hv])
    | none =>
      cases hc : m.canvas with
      | some c =>
        exact fin c.width c.height 1 1 1 1 one one (by simp only [MVars.extent, hd, hv, hc, Option.map_some])
          (by simp only [MVars.extentRounded, hd, hv, hc, Option.map_some])
      | none =>
        unfold MVars.scale MVars.scaleRounded
        simp only [MVars.extent, MVars.extentRounded, hd, hv, hc, Option.map_none, ExRel]

theorem measure_near (m : MVars) (un : MUnit) (v : TVal) :
    ExRel (TVal.Rel (NearBy u 9)) (measureVal m un v) (measureRounded fl m un v) := by
  have hs := scale_near h0 h1 hfl m
  unfold measureVal measureRounded
  cases e : m.scale <;> cases e' : m.scaleRounded fl <;> rw [e, e'] at hs
  · exact hs
  · exact hs.elim
  · exact hs.elim
  · obtain ⟨a, b, c⟩ := hs
    have hv := scaleVal_rel (R := NearBy u 3) (S := NearBy u 3)
      (fun x x' y h => h.mul h0 h1 (NearBy.refl h0 h1 y)) a b c v
    rename_i s s'
    simp only
    cases f : scaleVal s v <;> cases f' : scaleVal s' v <;> rw [f, f'] at hv
    · exact hv
    · exact hv.elim
    · exact hv.elim
    · rename_i r r'
      have h4 : TVal.Rel (NearBy u 4) (r.mapNums (fun x => x)) (r'.mapNums fl) :=
        hv.map (fun x y h => h.round h0 h1 hfl)
      rw [mapNums_id] at h4
      have fin : ∀ d, TVal.Rel (NearBy u 9) (r.scaleBy (un.factor d))
          (((r'.mapNums fl).scaleBy (un.factorRounded fl d)).mapNums fl) := by
        intro d
        rw [scaleBy_eq, scaleBy_eq]
        have h5 := h4.map (S := NearBy u 8) (f := (un.factor d * ·)) (g := (un.factorRounded fl d * ·))
          (fun x y h => (factor_near h0 h1 hfl d un).mul h0 h1 h)
        have h6 := h5.map (S := NearBy u 9) (f := fun x => x) (g := fl) (fun x y h => h.round h0 h1 hfl)
        rwa [mapNums_id] at h6
      cases un with
      | pixel => exact h4.imp (fun x y h => h.mono h0 h1 (by omega))
      | _ =>
        cases hr : m.resolution with
        | none => rfl
        | some d => exact fin d

end

theorem TVal.Rel.to_within {r : ℚ} {v w : TVal} (h : TVal.Rel (WithinPart r) v w) : v.Within r w := by
  cases v <;> cases w <;> exact h

theorem TVal.Within.to_rel {r : ℚ} {v w : TVal} (h : v.Within r w) : TVal.Rel (WithinPart r) v w := by
  cases v <;> cases w <;> exact h

theorem TVal.Within.mono {r s : ℚ} (hrs : r ≤ s) {v w : TVal} (h : v.Within r w) : v.Within s w :=
  TVal.Rel.to_within (h.to_rel.imp fun x _ hxy => hxy.trans (mul_le_mul_of_nonneg_right hrs (abs_nonneg x)))

theorem forall2_join {α β γ : Type} {R : α → β → Prop} {S : α → γ → Prop} {T : β → γ → Prop}
    (h : ∀ a b c, R a b → S a c → T b c) {xs : List α} {ys : List β} {zs : List γ}
    (h1 : List.Forall₂ R xs ys) (h2 : List.Forall₂ S xs zs) : List.Forall₂ T ys zs := by
  induction h1 generalizing zs with
  | nil => cases h2; exact .nil
  | cons hab _ ih => cases h2 with | cons hac ht => exact .cons (h _ _ _ hab hac) (ih ht)

theorem WithinPart.join {r : ℚ} (h0 : 0 ≤ r) (h1 : r ≤ 1 / 3) (x y z : ℚ) (hy : WithinPart r x y)
    (hz : WithinPart r x z) : WithinPart (3 * r) y z := by
  unfold WithinPart at *
  have a : |z - y| ≤ |z - x| + |y - x| := by
    rw [abs_sub_comm y x]
    exact abs_sub_le z x y
  have b : |x| - |y| ≤ |y - x| := by
    rw [abs_sub_comm y x]
    exact abs_sub_abs_le_abs_sub x y
  have hx := abs_nonneg x
  have c : |x| * (2 / 3) ≤ |y| := by nlinarith
  nlinarith

theorem TVal.Within.trans_near {r : ℚ} (h0 : 0 ≤ r) (h1 : r ≤ 1 / 3) {v w w' : TVal} (h : v.Within r w)
    (h' : v.Within r w') : w.Within (3 * r) w' := by
  have J := WithinPart.join h0 h1
  cases v <;> cases w <;> simp only [TVal.Within] at h <;> cases w' <;> simp only [TVal.Within] at h' ⊢
  · exact J _ _ _ h h'
  · exact forall2_join J h h'
  · refine ⟨h.1.symm.trans h'.1, ?_⟩
    have K : ∀ a b c : List ℚ, List.Forall₂ (WithinPart r) a b → List.Forall₂ (WithinPart r) a c →
        List.Forall₂ (WithinPart (3 * r)) b c := fun a b c p q => forall2_join J p q
    exact forall2_join K h.2 h'.2

end Verif
