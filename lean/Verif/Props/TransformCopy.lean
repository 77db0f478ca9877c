import Verif.Lemmas.TransformCopy
import Verif.Props.Transform
/-
C19, C20, C22 for every transform: the value of a copy, of a composition and of an operator, whether
something is lost or not.
-/

namespace Verif

variable {V : Type}

/-! ### C19 -/

/-- **C19.** What any copy evaluates to, for all variables and any depth: the same, except that an operator
whose right operand is no transform evaluates its left operand and then raises `TypeError`. -/
theorem copy_value (S : TSem V) (n : Nat) (h h' : THeap V) (r r' : Nat) (hw : Whole h r)
    (hc : combine S n h (.copy r) = (h', .ok r')) : ∀ f, evalT S h' f r' = evalCopy S h f r := by
  have hf := combine_frame S n h (.copy r)
  rw [hc] at hf
  exact (copyT_tcopyOf S n h r h' r' hc hw).eval S hf hw

/-- A copy of a copy evaluates to the same as the copy. -/
theorem copy_again (S : TSem V) (n : Nat) (h h1 h2 : THeap V) (r r1 r2 : Nat) (hw : Whole h r)
    (h₁ : combine S n h (.copy r) = (h1, .ok r1)) (h₂ : combine S n h1 (.copy r1) = (h2, .ok r2)) :
    ∀ f, evalT S h2 f r2 = evalT S h1 f r1 := by
  have hf := combine_frame S n h (.copy r)
  rw [h₁] at hf
  have hcp := copyT_tcopyOf S n h r h1 r1 h₁ hw
  intro f
  rw [copy_value S n h1 h2 r1 r2 (hcp.whole hf hw) h₂ f, copy_value S n h h1 r r1 hw h₁ f]
  exact hcp.evalCopy S hf hw f

/-- **C19.** A transform that has a value, and its copy: the copy has the same value just when no operator
with a number on the right is evaluated with it; else it raises `TypeError`. In no case does a copy have
another value. -/
theorem copy_same_iff (S : TSem V) (n : Nat) (h h' : THeap V) (r r' : Nat) (hw : Whole h r)
    (hc : combine S n h (.copy r) = (h', .ok r')) (f : Nat) (v : V) (hv : evalT S h f r = .ok v) :
    (evalT S h' f r' = .ok v ↔ ∀ i, UsedBy h r i → ¬ HasNumber h i) ∧
    (evalT S h' f r' = .ok v ∨ evalT S h' f r' = .error .typeError) := by
  rw [copy_value S n h h' r r' hw hc f]
  rcases evalCopy_cases S h f r v hv with ⟨h1, h2⟩ | ⟨h1, i, h2, h3⟩
  · exact ⟨⟨fun _ => h2, fun _ => h1⟩, .inl h1⟩
  · refine ⟨⟨fun h4 => ?_, fun h4 => absurd h3 (h4 i h2)⟩, .inr h1⟩
    rw [h1] at h4
    cases h4

/-! ### C22 -/

/-- **C22.** The value of `a op other` for all operands, measures times a number excepted: the values the
copies of the operands have, combined in this order. -/
theorem arith_value (S : TSem V) (n : Nat) (h h' : THeap V) (b : Bin) (a r' : Nat) (o : Opd V)
    (ha : Whole h a) (ho : ∀ x ∈ o.refs, Whole h x)
    (hm : b = .mul → isMeasure h a = true → ∀ v, o = .val v → S.scales v = false)
    (hc : combine S n h (.bin b a o) = (h', .ok r')) : ∀ f, evalT S h' (f + 1) r' =
      match evalCopy S h f a with
      | .error e => .error e
      | .ok x => match opdCopy S h f o with
        | .error e => .error e
        | .ok y => arithVal S b.op (some x) y := by
  have key : ∀ op, newArith S n h op (.ref a) o = (h', .ok r') → ∀ f, evalT S h' (f + 1) r' =
      match evalCopy S h f a with
      | .error e => .error e
      | .ok x => match opdCopy S h f o with
        | .error e => .error e
        | .ok y => arithVal S op (some x) y := by
    intro op hop f
    rw [newArith_value S (l := .ref a) (by simp only [Opd.refs, List.mem_singleton]; rintro x rfl; exact ha)
      ho hop f]
    have : opdCopy S h f (.ref a) = match evalCopy S h f a with
      | .error e => .error e
      | .ok v => .ok (some v) := rfl
    rw [this]
    cases evalCopy S h f a <;> rfl
  cases b <;> simp only [combine, binT] at hc
  case mul =>
    split at hc
    · rename_i hmea
      unfold measureMul at hc
      split at hc
      · rename_i v
        rw [if_neg (by rw [hm rfl hmea v rfl]; simp)] at hc
        exact key _ hc
      · exact key _ hc
    · exact key _ hc
  all_goals exact key _ hc

/-- **C22.** A sum, difference, product or quotient of two transforms with values is their combination just
when neither evaluates an operator with a number on the right; else it raises `TypeError`. -/
theorem arith_same_iff (S : TSem V) (n : Nat) (h h' : THeap V) (b : Bin) (a c r' : Nat)
    (ha : Whole h a) (hcw : Whole h c) (hc : combine S n h (.bin b a (.ref c)) = (h', .ok r')) (f : Nat)
    (x y : V) (hx : evalT S h f a = .ok x) (hy : evalT S h f c = .ok y) :
    ((∀ i, UsedBy h a i ∨ UsedBy h c i → ¬ HasNumber h i) → evalT S h' (f + 1) r' = S.arith b.op x y) ∧
    ((∃ i, (UsedBy h a i ∨ UsedBy h c i) ∧ HasNumber h i) → evalT S h' (f + 1) r' = .error .typeError) := by
  have hval := arith_value S n h h' b a r' (.ref c) ha
    (by simp only [Opd.refs, List.mem_singleton]; rintro z rfl; exact hcw) (by intros; simp_all) hc f
  have hopd : opdCopy S h f (.ref c) = match evalCopy S h f c with
      | .error e => .error e
      | .ok v => .ok (some v) := rfl
  rw [hopd] at hval
  have ca := evalCopy_cases S h f a x hx
  have cc := evalCopy_cases S h f c y hy
  constructor
  · intro hno
    rcases ca with ⟨k1, _⟩ | ⟨_, i, k2, k3⟩
    · rcases cc with ⟨k4, _⟩ | ⟨_, i, k2, k3⟩
      · rw [hval, k1, k4]
        rfl
      · exact absurd k3 (hno i (.inr k2))
    · exact absurd k3 (hno i (.inl k2))
  · rintro ⟨i, hi, hn⟩
    rcases ca with ⟨k1, k2⟩ | ⟨k1, _⟩
    · rcases cc with ⟨k3, k4⟩ | ⟨k3, _⟩
      · rcases hi with hi | hi
        · exact absurd hn (k2 i hi)
        · exact absurd hn (k4 i hi)
      · rw [hval, k1, k3]
    · rw [hval, k1]

/-! ### C20 -/

/-- **C20.** The value of `a(b)`, for a transform `a` of one argument and any `b`: the function of `a`
applied to what a copy of `b` evaluates to. -/
theorem call_composes (S : TSem V) (n : Nat) (h h' : THeap V) (a b r' : Nat) (t : TNode V)
    (ha : Whole h a) (hb : Whole h b) (ht : h[a]? = some t) (hu : t.data.unary = true)
    (hc : combine S n h (.call a (.ref b)) = (h', .ok r')) :
    ∀ f, evalT S h' (f + 1) r' = t.data.app S (evalCopy S h f b) := by
  obtain ⟨bs, o', h1, _, h3⟩ := callT_value S ha hb ht hu hc
  intro f
  conv => lhs; unfold evalT
  rw [h1]
  dsimp only
  rw [evalNode_unary S (t := ⟨bs, some o', none, t.data⟩) hu]
  dsimp only
  rw [h3]

/-- **C20.** `a(b)(c)`, for any `b` and `c`: the function of `a` applied to what a copy of `c` evaluates
to; `b` plays no role. -/
theorem call_again (S : TSem V) (n : Nat) (h h1 h2 : THeap V) (a b c r1 r2 : Nat) (t : TNode V)
    (ha : Whole h a) (hb : Whole h b) (hcw : Whole h c) (ht : h[a]? = some t) (hu : t.data.unary = true)
    (h₁ : combine S n h (.call a (.ref b)) = (h1, .ok r1))
    (h₂ : combine S n h1 (.call r1 (.ref c)) = (h2, .ok r2)) :
    ∀ f, evalT S h2 (f + 1) r2 = t.data.app S (evalCopy S h f c) := by
  obtain ⟨bs, o', k1, k2, _⟩ := callT_value S ha hb ht hu h₁
  have hf := combine_frame S n h (.call a (.ref b))
  rw [h₁] at hf
  have hw1 : Whole h1 r1 := by
    refine whole_of_refs k1 (fun j hj => ?_)
    have : j = o' := by
      simp only [TNode.refs] at hj
      cases hd : t.data <;> rw [hd] at hj hu <;> simp [TData.unary] at hu <;> simpa using hj
    subst this
    exact k2
  intro f
  have := call_composes S n h1 h2 r1 c r2 _ hw1 (hcw.frame hf) k1 hu h₂ f
  rw [this, Whole.evalCopy S hf f hcw]

/-! ### Concrete cases -/

theorem theap_whole : ∀ x, x < 3 → Whole theap x := by
  intro x hx i hi
  obtain ⟨t, ht, _⟩ := theap_copyable x hx i hi
  exact (List.getElem?_eq_some_iff.1 ht).1

/-- `X(5) + 1` has the value 6, and an operator with a number. -/
example : ∃ h' : THeap Int, combine tdemo 9 theap (.bin .add 2 (.val 1)) = (h', .ok 3) ∧
    evalT tdemo h' 9 3 = .ok 6 ∧ HasNumber h' 3 ∧ evalCopy tdemo h' 9 3 = .error .typeError :=
  ⟨_, rfl, by decide, ⟨_, .add, .ref 4, 1, rfl, rfl⟩, by decide⟩

/-- `inch(X(5) + 1)` raises, `inch(X(5))` is 480. -/
example : ∃ h1 h2 : THeap Int, combine tdemo 9 theap (.bin .add 2 (.val 1)) = (h1, .ok 3) ∧
    combine tdemo 9 h1 (.call 1 (.ref 3)) = (h2, .ok 5) ∧ evalT tdemo h2 9 5 = .error .typeError :=
  ⟨_, _, rfl, rfl, by decide⟩

example : ∃ h' : THeap Int, combine tdemo 9 theap (.bin .add 1 (.ref 2)) = (h', .ok 3) ∧
    evalT tdemo h' 9 3 = .ok 101 := ⟨_, rfl, by decide⟩

end Verif
