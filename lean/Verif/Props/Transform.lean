import Verif.Lemmas.Transform
/-
C18-C22: copying, composing, binding and combining transforms.
-/

namespace Verif

variable {V : Type}

/-! ### A concrete semantics, for the examples -/

/-- Integers as values, at 96 dots per inch. -/
def tdemo : TSem Int where
  arith op a b := match op with
    | .add => .ok (a + b)
    | .sub => .ok (a - b)
    | .mul => .ok (a * b)
    | .div => if b = 0 then .error .zeroDivision else .ok (a / b)
  access _ v := .ok v
  hasDpi := true
  measure u v := match u with
    | .inch => .ok (96 * v)
    | _ => .ok v
  one := 1
  cmap _ _ _ v := match v with | some v => .ok (v + 1000) | none => .error .attributeError
  out _ := .ok 7
  ok _ := true
  bindable _ := true
  scales _ := true
  minusOne := -1

/-- Three transforms: `Pixel()`, `Inch()`, `X(5)`. -/
def theap : THeap Int :=
  [⟨none, none, none, .measure .pixel⟩, ⟨none, none, none, .measure .inch⟩,
   ⟨none, none, some 5, .accessor (some "x") (some "x")⟩]

/-! ### C18: combining transforms never modifies them -/

/-- Whatever is called, composed, copied or combined, and whether it succeeds or raises, every
transform that existed is exactly as it was. -/
theorem combine_keeps (S : TSem V) (n : Nat) (h : THeap V) (op : TOp V) :
    Unchanged h (combine S n h op).1 :=
  (combine_frame S n h op).same

example : combine tdemo 9 theap (.call 1 (.val 3)) =
    (theap ++ [⟨some 1, none, some 3, .measure .inch⟩], .ok 3) := by decide

/-- The result is a new transform, and nothing it uses existed before, provided the operands
lose nothing when copied. Missing: operands that contain an operator whose right operand is a
number (next theorem). -/
theorem combine_fresh_partial (S : TSem V) (n : Nat) (h h' : THeap V) (op : TOp V) (r' : Nat)
    (hop : ∀ x ∈ op.operands, Copyable h x) (hc : combine S n h op = (h', .ok r')) :
    ∀ i, Reach h' r' i → h.length ≤ i := by
  obtain ⟨h1, h2⟩ := combine_closed S (fun x hx => good_of_copyable (hop x hx)) hc
  exact fun i hi => reach_closed h2 (Nat.le_of_eq h1.symm) hi

/-- All transforms of `theap` can be copied without loss. -/
theorem theap_copyable : ∀ x, x < 3 → Copyable theap x := by
  have key : ∀ x i, x < 3 → Reach theap x i → i < 3 := by
    intro x i hx hi
    induction hi with
    | self => exact hx
    | @step j k t _ ht hk ih =>
      have : t.refs = [] := by
        match j, ih with
        | 0, _ => cases ht; rfl
        | 1, _ => cases ht; rfl
        | 2, _ => cases ht; rfl
      rw [this] at hk
      cases hk
  intro x hx i hi
  match i, key x i hx hi with
  | 0, _ => exact ⟨_, rfl, trivial⟩
  | 1, _ => exact ⟨_, rfl, trivial⟩
  | 2, _ => exact ⟨_, rfl, trivial⟩

example : ∃ h', combine tdemo 9 theap (.bin .add 0 (.ref 2)) = (h', .ok 3) ∧
    ∀ i, Reach h' 3 i → 3 ≤ i := by
  refine ⟨_, rfl, ?_⟩
  refine combine_fresh_partial tdemo 9 theap _ (.bin .add 0 (.ref 2)) 3 ?_ rfl
  intro x hx
  have : x = 0 ∨ x = 2 := by simpa [TOp.operands, Opd.refs] using hx
  exact theap_copyable x (by omega)

/-- In general the result does share transforms with its operand: the copy of `pixel + 1` uses
the same left operand as the original (operator.py:118). -/
theorem combine_fresh_fails : ∃ (h' h'' : THeap Int) (a b i : Nat),
    combine tdemo 9 theap (.bin .add 0 (.val 1)) = (h', .ok a) ∧
    combine tdemo 9 h' (.copy a) = (h'', .ok b) ∧ i < h'.length ∧ Reach h'' b i :=
  ⟨_, _, 3, 5, 4, rfl, rfl, by decide, .step .self rfl (by decide)⟩

/-! ### C19: a copied transform computes the same thing -/

/-- A copy evaluates to the same value or the same exception, for all variables (`S`) and
whatever the depth, provided nothing is lost. Missing: operators whose right operand is a
number (`copy_same_fails`). -/
theorem copy_same_partial (S : TSem V) (n : Nat) (h h' : THeap V) (r r' : Nat)
    (hr : Copyable h r) (hc : combine S n h (.copy r) = (h', .ok r')) :
    ∀ f, evalT S h' f r' = evalT S h f r :=
  (copyT_spec S n h r h' r' hc (good_of_copyable hr)).eval

/-- The copy succeeds on all transforms with attributes that pass the type check, whose depth
is within the recursion limit. -/
theorem copy_succeeds (S : TSem V) (n : Nat) (h : THeap V) (r : Nat) (hr : OkDepth S h n r) :
    (combine S n h (.copy r)).2 = .ok h.length :=
  copyT_ok S n h r hr

example : ∃ h', combine tdemo 9 theap (.copy 2) = (h', .ok 3) ∧
    evalT tdemo h' 9 3 = .ok 5 ∧ evalT tdemo theap 9 2 = .ok 5 := ⟨_, rfl, by decide, by decide⟩

example : OkDepth tdemo theap 2 1 :=
  ⟨_, rfl, rfl, trivial, ⟨1, rfl⟩, fun j hj => by simp [TNode.refs] at hj⟩

/-- `pixel + 1` evaluates to 2; its copy has lost the 1 and raises TypeError. -/
theorem copy_same_fails : ∃ (h' h'' : THeap Int) (a b : Nat),
    combine tdemo 9 theap (.bin .add 0 (.val 1)) = (h', .ok a) ∧
    combine tdemo 9 h' (.copy a) = (h'', .ok b) ∧
    evalT tdemo h' 9 a = .ok 2 ∧ evalT tdemo h'' 9 b = .error .typeError :=
  ⟨_, _, 3, 5, rfl, rfl, by decide, by decide⟩

/-! ### C20: composition is associative -/

/-- `a(b)` evaluates to the function of `a` applied to the value of `b`, for a transform `a` of
one argument. -/
theorem call_composes_partial (S : TSem V) (n : Nat) (h h' : THeap V) (a b r' : Nat) (t : TNode V)
    (ha : Copyable h a) (hb : Copyable h b) (ht : h[a]? = some t) (hu : t.data.unary = true)
    (hc : combine S n h (.call a (.ref b)) = (h', .ok r')) :
    ∀ f, evalT S h' (f + 1) r' = t.data.app S (evalT S h f b) := by
  obtain ⟨_, _, _, t0, d', bs, o', h1, h2, h3, _, h4⟩ :=
    callT_ref_spec S (good_of_copyable ha) (good_of_copyable hb) hc
  rw [ht] at h1
  cases h1
  obtain ⟨hu', _, happ⟩ := standsData_unary h4 hu
  intro f
  conv => lhs; unfold evalT
  rw [h2]
  dsimp only
  rw [evalNode_unary S (t := ⟨bs, some o', none, d'⟩) hu']
  dsimp only
  rw [happ, h3]

/-- `a(b)(c)` evaluates to the function of `a` applied to the value of `c`: `b` plays no role
(the new `next` replaces the chain instead of extending it). So composition is associative
exactly when `b` makes no difference. -/
theorem call_again_replaces (S : TSem V) (n : Nat) (h h1 h2 : THeap V) (a b c r1 r2 : Nat)
    (t : TNode V) (ha : Copyable h a) (hb : Copyable h b) (hcc : Copyable h c)
    (ht : h[a]? = some t) (hu : t.data.unary = true)
    (h₁ : combine S n h (.call a (.ref b)) = (h1, .ok r1))
    (h₂ : combine S n h1 (.call r1 (.ref c)) = (h2, .ok r2)) :
    ∀ f, evalT S h2 (f + 1) r2 = t.data.app S (evalT S h f c) := by
  obtain ⟨e1, _, g1, t0, d', bs, o', k1, k2, k3, k4, k5⟩ :=
    callT_ref_spec S (good_of_copyable ha) (good_of_copyable hb) h₁
  rw [ht] at k1
  cases k1
  obtain ⟨hu', _, happ⟩ := standsData_unary k5 hu
  have hf := combine_frame S n h (.call a (.ref b))
  rw [h₁] at hf
  have gc := (good_of_copyable hcc).frame hf
  obtain ⟨_, _, _, t1, d2, bs2, o2, m1, m2, m3, _, m5⟩ := callT_ref_spec S g1 gc h₂
  rw [k2] at m1
  cases m1
  obtain ⟨hu2, _, happ2⟩ := standsData_unary m5 hu'
  intro f
  conv => lhs; unfold evalT
  rw [m2]
  dsimp only
  rw [evalNode_unary S (t := ⟨bs2, some o2, none, d2⟩) hu2]
  dsimp only
  rw [happ2, happ, m3, (good_of_copyable hcc).eval_frame S hf]

example : ∃ h1 h2 : THeap Int, combine tdemo 9 theap (.call 1 (.ref 2)) = (h1, .ok 3) ∧
    evalT tdemo h1 9 3 = .ok 480 ∧
    combine tdemo 9 h1 (.call 3 (.ref 0)) = (h2, .ok 5) ∧ evalT tdemo h2 9 5 = .ok 96 :=
  ⟨_, _, rfl, by decide, rfl, by decide⟩

/-- `inch(inch)(pixel)` is 96, `inch(inch(pixel))` is 9216. -/
theorem call_associative_fails : ∃ (h1 h2 h3 h4 : THeap Int) (ab abc bc abc' : Nat),
    combine tdemo 9 theap (.call 1 (.ref 1)) = (h1, .ok ab) ∧
    combine tdemo 9 h1 (.call ab (.ref 0)) = (h2, .ok abc) ∧
    combine tdemo 9 theap (.call 1 (.ref 0)) = (h3, .ok bc) ∧
    combine tdemo 9 h3 (.call 1 (.ref bc)) = (h4, .ok abc') ∧
    evalT tdemo h2 9 abc = .ok 96 ∧ evalT tdemo h4 9 abc' = .ok 9216 :=
  ⟨_, _, _, _, 3, 5, 3, 5, rfl, rfl, rfl, rfl, by decide, by decide⟩

/-! ### C21: a bound transform cannot be rebound -/

/-- Applying a chain of transforms of one argument to a value that passes the type check raises
ValueError when, and only when, the chain is bound; else the result is the same chain, with its
last transform bound to the value. Missing: operators (`call_value_operator_fails`) and values
that do not pass the type check (`call_value_unchecked`). -/
theorem call_value_partial (S : TSem V) (n : Nat) (h : THeap V) (r : Nat) (ds : List (TData V))
    (b : Option V) (v : V) (hch : IsChain h r ds b) (hu : ∀ d ∈ ds, d.unary = true)
    (hn : ds.length ≤ n) (hcopy : (combine S n h (.copy r)).2 = .ok h.length)
    (hb : S.bindable v = true) (hk : S.ok v = true) :
    ((combine S n h (.call r (.val v))).2 = .error .valueError ↔ b ≠ none) ∧
    (b = none → ∃ h' r', combine S n h (.call r (.val v)) = (h', .ok r') ∧
      IsChain h' r' ds (some v)) := by
  have hcall : combine S n h (.call r (.val v)) = callT S n h r (.val v) := rfl
  have hhd : ∃ t, h[r]? = some t ∧ t.data.unary = true := by
    cases hch with
    | last ht _ => exact ⟨_, ht, hu _ (by simp)⟩
    | cons ht _ _ => exact ⟨_, ht, hu _ (by simp)⟩
  obtain ⟨t0, ht0, hut⟩ := hhd
  rw [hcall]
  unfold callT
  rw [ht0]
  dsimp only
  simp only [combine] at hcopy
  cases hC : copyT S n h r with
  | mk g res =>
    rw [hC] at hcopy
    dsimp only at hcopy
    subst hcopy
    have hf : TFrame h g := by have := copyT_frame S n h r; rw [hC] at this; exact this
    have hbo := isChain_bound (isChain_frame hf hch) hu hn
    have hch' := copyT_chain S n hC hch hu
    obtain ⟨x, t, h1, h2, h3, h4⟩ := isChain_last hch'
    have hx := h4 n hn
    have hfin := isChain_bind hch' h1 h2 ⟨n, hx⟩ v
    dsimp only
    rw [if_pos hb, hbo]
    cases hd : t0.data <;> rw [hd] at hut <;> simp [TData.unary] at hut <;>
      (cases b with
       | some w => exact ⟨⟨fun _ => by simp, fun _ => rfl⟩, fun h => by simp at h⟩
       | none =>
         simp only [Option.isSome_none, hx, hk, if_true]
         exact ⟨⟨fun h => by simp at h, fun h => absurd rfl h⟩, fun _ => ⟨_, _, rfl, hfin⟩⟩)

/-- A bound chain evaluates to the composition of its functions at the value. -/
theorem chain_evaluates (S : TSem V) (h : THeap V) (r : Nat) (ds : List (TData V))
    (b : Option V) (hch : IsChain h r ds b) (hu : ∀ d ∈ ds, d.unary = true) :
    ∀ f, ds.length ≤ f → evalT S h f r = chainFn S ds b :=
  isChain_eval S hch hu

/-- The chain `Inch()(Pixel())`. -/
def tchain : THeap Int :=
  theap ++ [⟨none, some 0, none, .measure .inch⟩]

theorem tchain_isChain : IsChain tchain 3 [.measure .inch, .measure .pixel] none :=
  .cons (t := ⟨none, some 0, none, .measure .inch⟩) rfl rfl
    (.last (t := ⟨none, none, none, .measure .pixel⟩) rfl rfl)

example : ∃ h' r', combine tdemo 9 tchain (.call 3 (.val 4)) = (h', .ok r') ∧
    IsChain h' r' [.measure .inch, .measure .pixel] (some 4) ∧ evalT tdemo h' 9 r' = .ok 384 := by
  obtain ⟨h', r', h1, h2⟩ := (call_value_partial tdemo 9 tchain 3 _ none 4 tchain_isChain
    (by decide) (by decide) (by decide) rfl rfl).2 rfl
  exact ⟨h', r', h1, h2, chain_evaluates tdemo h' r' _ _ h2 (by decide) 9 (by decide)⟩

/-- Operators: `(x(5) + 1)(3)` raises AttributeError, as `1` has no attribute `bound`; and
`(pixel + inch)(3)` is accepted, again and again, without effect on its value. -/
theorem call_value_operator_fails :
    (∃ h' : THeap Int, combine tdemo 9 theap (.bin .add 2 (.val 1)) = (h', .ok 3) ∧
      (combine tdemo 9 h' (.call 3 (.val 3))).2 = .error .attributeError) ∧
    (∃ (h1 h2 h3 : THeap Int) (s p q : Nat),
      combine tdemo 9 theap (.bin .add 0 (.ref 1)) = (h1, .ok s) ∧
      combine tdemo 9 h1 (.call s (.val 3)) = (h2, .ok p) ∧
      combine tdemo 9 h2 (.call p (.val 4)) = (h3, .ok q) ∧
      evalT tdemo h1 9 s = .ok 97 ∧ evalT tdemo h2 9 p = .ok 97 ∧ evalT tdemo h3 9 q = .ok 97) :=
  ⟨⟨_, rfl, by decide⟩, _, _, _, 3, 6, 9, rfl, rfl, rfl, by decide, by decide, by decide⟩

/-- A value that the type check refuses raises ValueError although the transform is not bound. -/
theorem call_value_unchecked : ∃ S : TSem Int, S.bindable 3 = true ∧
    IsChain theap 0 [.measure .pixel] none ∧
    (combine S 9 theap (.call 0 (.val 3))).2 = .error .valueError :=
  ⟨{ tdemo with ok := fun _ => false }, rfl,
    .last (t := ⟨none, none, none, .measure .pixel⟩) rfl rfl, rfl⟩

/-! ### C22: transform arithmetic is pointwise arithmetic -/

/-- The value of `op` on two operands that are evaluated first, left to right. -/
def pointwise (S : TSem V) (op : AOp) (l r : Except Err V) : Except Err V :=
  match l, r with
  | .error e, _ => .error e
  | .ok _, .error e => .error e
  | .ok a, .ok b => S.arith op a b

/-- The value of an operand that is not `None`. -/
def opdVal (S : TSem V) (h : THeap V) (f : Nat) : Opd V → Except Err V
  | .ref r => evalT S h f r
  | .val v => .ok v
  | .none => .error .typeError

theorem newArith_eval (S : TSem V) {n : Nat} {h h' : THeap V} {op l rt r'} (hl : CopyableOpd h l)
    (hr : CopyableOpd h rt) (hln : l ≠ .none) (hrn : rt ≠ .none)
    (hc : newArith S n h op l rt = (h', .ok r')) :
    ∀ f, evalT S h' (f + 1) r' = pointwise S op (opdVal S h f l) (opdVal S h f rt) := by
  have hg : ∀ o : Opd V, CopyableOpd h o → ∀ x ∈ o.refs, Good h x := by
    intro o ho x hx
    cases o <;> simp [Opd.refs] at hx
    subst hx
    exact good_of_copyable ho
  obtain ⟨rfl, _, l', rt', h1, h2, h3⟩ := newArith_spec S (hg l hl) (hg rt hr) hc
  intro f
  unfold evalT
  rw [h3]
  simp only [evalNode, evalOpd_stands h1, evalOpd_stands h2]
  cases l with
  | none => exact absurd rfl hln
  | val a =>
    cases rt with
    | none => exact absurd rfl hrn
    | val b => rfl
    | ref b =>
      simp only [evalOpd, opdVal]
      cases evalT S h f b <;> rfl
  | ref a =>
    cases rt with
    | none => exact absurd rfl hrn
    | val b =>
      simp only [evalOpd, opdVal]
      cases evalT S h f a <;> rfl
    | ref b =>
      simp only [evalOpd, opdVal]
      cases evalT S h f a <;> cases evalT S h f b <;> rfl

/-- The operator a program writes. -/
def Bin.op : Bin → AOp
  | .add => .add
  | .sub => .sub
  | .mul => .mul
  | .div => .div

/-- `a op other`, for a transform `a` and a transform or number `other`: the value is the value
of `a` combined with that of `other`, in this order. A measure times a number is not covered
(it binds the measure, see `measure_times_partial`). Missing: operands that lose something when
copied (`arith_pointwise_fails`). -/
theorem arith_pointwise_partial (S : TSem V) (n : Nat) (h h' : THeap V) (b : Bin) (a r' : Nat)
    (o : Opd V) (ha : Copyable h a) (ho : CopyableOpd h o) (hon : o ≠ .none)
    (hm : b = .mul → isMeasure h a = true → ∀ v, o = .val v → S.scales v = false)
    (hc : combine S n h (.bin b a o) = (h', .ok r')) :
    ∀ f, evalT S h' (f + 1) r' = pointwise S b.op (evalT S h f a) (opdVal S h f o) := by
  have key : ∀ op, newArith S n h op (.ref a) o = (h', .ok r') →
      ∀ f, evalT S h' (f + 1) r' = pointwise S op (evalT S h f a) (opdVal S h f o) :=
    fun op hop => newArith_eval S (l := .ref a) ha ho (by simp) hon hop
  cases b <;> simp only [combine, binT] at hc
  case mul =>
    split at hc
    · rename_i hmea
      unfold measureMul at hc
      split at hc
      · rename_i v
        rw [if_neg (by rw [hm rfl hmea v rfl]; simp)] at hc
        exact key _ hc
      · exact key _ hc
    · exact key _ hc
  all_goals exact key _ hc

/-- `v op a`, for a number `v` and a transform `a`, where `op` is not division and `a` no
measure to be multiplied: `v` combined with the value of `a`. For the sum the values are added
the other way round, `a + v`. -/
theorem rarith_pointwise_partial (S : TSem V) (n : Nat) (h h' : THeap V) (b : Bin) (v : V)
    (a r' : Nat) (ha : Copyable h a) (hm : b = .mul → isMeasure h a = false)
    (hadd : ∀ x y, S.arith .add x y = S.arith .add y x)
    (hc : combine S n h (.rbin b v a) = (h', .ok r')) :
    ∀ f, evalT S h' (f + 1) r' = pointwise S b.op (.ok v) (evalT S h f a) := by
  cases b <;> simp only [combine, rbinT] at hc
  case add =>
    intro f
    rw [newArith_eval S (l := .ref a) (rt := .val v) ha trivial (by simp) (by simp) hc f]
    simp only [opdVal, Bin.op]
    cases evalT S h f a with
    | error e => rfl
    | ok x => exact hadd x v
  case sub => exact newArith_eval S (l := .val v) (rt := .ref a) trivial ha (by simp) (by simp) hc
  case mul =>
    rw [hm rfl] at hc
    exact newArith_eval S (l := .val v) (rt := .ref a) trivial ha (by simp) (by simp) hc
  case div => simp at hc

/-- `-a`: the value of `a` times -1. -/
theorem neg_pointwise_partial (S : TSem V) (n : Nat) (h h' : THeap V) (a r' : Nat)
    (ha : Copyable h a) (hc : combine S n h (.neg a) = (h', .ok r')) :
    ∀ f, evalT S h' (f + 1) r' = pointwise S .mul (evalT S h f a) (.ok S.minusOne) := by
  simp only [combine, negT] at hc
  exact newArith_eval S (l := .ref a) (rt := .val S.minusOne) ha trivial (by simp) (by simp) hc

/-- A number times a measure that is not bound, in either order: the measure of the number. -/
theorem measure_times_partial (S : TSem V) (n : Nat) (h : THeap V) (r : Nat) (u : MUnit) (v : V)
    (hch : IsChain h r [.measure u] none) (hn : 1 ≤ n)
    (hcopy : (combine S n h (.copy r)).2 = .ok h.length)
    (hb : S.bindable v = true) (hk : S.ok v = true) (hs : S.scales v = true) :
    ∀ op ∈ [TOp.bin .mul r (.val v), TOp.rbin .mul v r], ∃ h' r',
      combine S n h op = (h', .ok r') ∧
      ∀ f, evalT S h' (f + 1) r' = (TData.measure u).fn S (some v) := by
  have hm : isMeasure h r = true := by
    generalize hds : [TData.measure u] = ds at hch
    generalize (none : Option V) = b at hch
    cases hch with
    | cons ht hn hc =>
      have := isChain_ne_nil hc
      simp at hds
      exact absurd hds.2 this
    | @last _ t ht hn =>
      simp at hds
      unfold isMeasure
      rw [ht]
      dsimp only
      rw [← hds]
  obtain ⟨h', r', h1, h2⟩ := (call_value_partial S n h r _ none v hch
    (by simp [TData.unary]) hn hcopy hb hk).2 rfl
  intro op hop
  refine ⟨h', r', ?_, fun f => ?_⟩
  · simp only [combine] at h1
    rcases List.mem_cons.1 hop with rfl | hop
    · simp only [combine, binT, hm, if_true, measureMul, hs, h1]
    · rcases List.mem_cons.1 hop with rfl | hop
      · simp only [combine, rbinT, hm, if_true, measureMul, hs, h1]
      · cases hop
  · exact chain_evaluates S h' r' _ _ h2 (by simp [TData.unary]) (f + 1) (by simp)

example : ∃ h' : THeap Int, combine tdemo 9 theap (.bin .sub 2 (.ref 1)) = (h', .ok 3) ∧
    evalT tdemo h' 9 3 = .ok (5 - 96) := ⟨_, rfl, by decide⟩
example : ∃ h' : THeap Int, combine tdemo 9 theap (.rbin .sub 7 2) = (h', .ok 3) ∧
    evalT tdemo h' 9 3 = .ok (7 - 5) := ⟨_, rfl, by decide⟩
example : ∃ h' : THeap Int, combine tdemo 9 theap (.rbin .mul 7 1) = (h', .ok 3) ∧
    evalT tdemo h' 9 3 = .ok (7 * 96) := ⟨_, rfl, by decide⟩
example : ∃ h' : THeap Int, combine tdemo 9 theap (.neg 2) = (h', .ok 3) ∧
    evalT tdemo h' 9 3 = .ok (-5) := ⟨_, rfl, by decide⟩

/-- `(x + 1) + y` raises TypeError when evaluated: the 1 is lost when the operand is copied. -/
theorem arith_pointwise_fails : ∃ (h1 h2 : THeap Int),
    combine tdemo 9 theap (.bin .add 2 (.val 1)) = (h1, .ok 3) ∧ evalT tdemo h1 9 3 = .ok 6 ∧
    combine tdemo 9 h1 (.bin .add 3 (.ref 1)) = (h2, .ok 5) ∧
    evalT tdemo h2 9 5 = .error .typeError :=
  ⟨_, _, rfl, by decide, rfl, by decide⟩

/-- `v / a` raises TypeError for every transform; and a measure that is bound cannot be
multiplied by a number: `2*(10*pixel)` raises ValueError. -/
theorem rdiv_fails (S : TSem V) (n : Nat) (h : THeap V) (v : V) (a : Nat) :
    (combine S n h (.rbin .div v a)).2 = .error .typeError := rfl

theorem measure_times_fails : ∃ h1 : THeap Int,
    combine tdemo 9 theap (.rbin .mul 10 0) = (h1, .ok 3) ∧
    (combine tdemo 9 h1 (.rbin .mul 2 3)).2 = .error .valueError := ⟨_, rfl, by decide⟩

end Verif
