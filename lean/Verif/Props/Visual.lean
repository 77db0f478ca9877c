import Verif.Lemmas.Visual
import Verif.Lemmas.Values
import Mathlib.Data.List.Nodup
import Mathlib.Data.List.Count
/-
C27 to C33, C52, C53: visuals.
-/

namespace Verif

/-! ### C27: variables are named cells -/

section vars
variable {V : Type} (fill : V → V → Except Err V)

/-- An input variable reads as the value last set, or as the one the visual was made with, after
any history of assignments to any names. (Setting one does not change another: the value
depends on the assignments to this name only.) -/
theorem variable_reads_last_partial (s : VarState V) (hist : List (String × V)) (name : String)
    (v0 : V) (h : dget s.ins name = some v0) :
    getVariable (setAll fill s hist) name = .ok ((lastValue name hist).getD v0) := by
  unfold getVariable
  rw [setAll_ins, h]
  rfl

/-- An output variable is written in place: it reads as the array filled with the value. -/
theorem output_reads_filled (s : VarState V) (name : String) (v old new : V)
    (hi : dget s.ins name = none) (ho : dget s.outs name = some old) (hf : fill old v = .ok new) :
    (setVariable fill s name v).2 = .ok () ∧
    getVariable (setVariable fill s name v).1 name = .ok new := by
  unfold setVariable getVariable
  simp [hi, ho, hf]

/-- Setting a variable does not change what another one reads as. -/
theorem variable_set_other (s : VarState V) (name other : String) (v : V) (h : name ≠ other) :
    getVariable (setVariable fill s name v).1 other = getVariable s other := by
  unfold getVariable
  rw [setVariable_ins, setVariable_outs fill s name v other (.inl h), if_neg h]

/-- Unknown names raise IndexError, for reading and for writing, and change nothing, whatever
was assigned before. -/
theorem variable_unknown (s : VarState V) (hist : List (String × V)) (name : String) (v : V)
    (hi : dget s.ins name = none) (ho : dget s.outs name = none) :
    getVariable (setAll fill s hist) name = .error .indexError ∧
    setVariable fill (setAll fill s hist) name v = (setAll fill s hist, .error .indexError) := by
  have h1 : dget (setAll fill s hist).ins name = none := by rw [setAll_ins, hi]; rfl
  have h2 : dget (setAll fill s hist).outs name = none := (setAll_outs_none fill s hist name).2 ho
  unfold getVariable setVariable
  simp [h1, h2]

/-- A name that is both an input and an output: transforms are evaluated with the output, which
no assignment ever reaches. -/
theorem variable_shadowed (s : VarState V) (hist : List (String × V)) (name : String) (v0 w : V)
    (hi : dget s.ins name = some v0) (ho : dget s.outs name = some w)
    (hn : (dkeys s.outs).Nodup) :
    dget (evalEnv (setAll fill s hist)) name = some w := by
  unfold evalEnv
  rw [dget_foldl_outs _ _ _ (setAll_nodup fill s hist hn), setAll_outs fill s hist name (by simp [hi]), ho]
  rfl

end vars

/-- `array[...] = value` for arrays of numbers: same length, or one number. -/
def fillFlat (old v : List ℚ) : Except Err (List ℚ) :=
  if v.length = old.length then .ok v
  else match v with
    | [x] => .ok (old.map (fun _ => x))
    | _ => .error .valueError

/-- The variables of a Points visual of three points, reduced to numbers. -/
def vdemo : VarState (List ℚ) :=
  ⟨[("positions", [1, 2, 3]), ("sizes", [5]), ("viewport", [])],
   [("screen[positions]", [0, 0, 0]), ("sizes", [0, 0, 0])]⟩

/-- The full property fails for outputs: what is read is not what was set. -/
theorem variable_reads_last_fails :
    (setVariable fillFlat vdemo "screen[positions]" [7]).2 = .ok () ∧
    getVariable (setVariable fillFlat vdemo "screen[positions]" [7]).1 "screen[positions]"
      = .ok [7, 7, 7] ∧
    (setVariable fillFlat vdemo "screen[positions]" [7, 8]).2 = .error .valueError := by
  decide +kernel

/-- … and an assignment to `sizes` is not seen by transforms that refer to `sizes`. -/
theorem variable_evaluated_fails :
    getVariable (setVariable fillFlat vdemo "sizes" [9]).1 "sizes" = .ok [9] ∧
    dget (evalEnv (setVariable fillFlat vdemo "sizes" [9]).1) "sizes" = some [0, 0, 0] := by
  decide +kernel

example : getVariable (setAll fillFlat vdemo
    [("sizes", [1]), ("positions", [4, 5, 6]), ("sizes", [2]), ("colour", [3])]) "sizes"
      = .ok [2] ∧
    getVariable (setAll fillFlat vdemo [("sizes", [1])]) "colour" = .error .indexError := by
  decide +kernel

/-! ### C28: the matrix applied -/

section rendering
variable {M D : Type} (b : RBody M D)

/-- After any history of renders (in any viewports, with any subset of the matrices, whether
they failed or not) and resizes, a render that returns has drawn the positions with the product
projection · view · model of the matrices last given for each role, the identity standing for
those never given. When the product does not exist, nothing is drawn. -/
theorem render_applies_product (one : M) (tr : Option Nat) (es : List (REvent M)) (c : RCall M)
    (hr : (render b (rrun b (rinit one tr) es) c).2 = .ok ()) :
    match lastProduct b.mul one (callsOf es ++ [c]) with
    | some m => ∃ d, b.draw m c.viewport = .ok d ∧
        dget (render b (rrun b (rinit one tr) es) c).1.collections c.viewport = some (some d)
    | none => ∀ d, dget (rrun b (rinit one tr) es : RState M D).collections c.viewport = some d →
        dget (render b (rrun b (rinit one tr) es) c).1.collections c.viewport = some d := by
  have hrem := rrun_remembers b one tr es
  generalize rrun b (rinit one tr) es = s at *
  have hT : (storeMatrices b.mul s c).transform = lastProduct b.mul one (callsOf es ++ [c]) := by
    obtain ⟨g1, g2, g3⟩ := hrem
    simp only [storeMatrices, lastProduct, List.map_append, List.map_cons, List.map_nil,
      lastGiven_snoc, g1, g2, g3]
  rw [← hT]
  have hk := (ensure_keeps b { storeMatrices b.mul s c with tracker := none } c.viewport).2.2.2.1
  have hold : ∀ d, dget s.collections c.viewport = some d →
      dget (ensureCollection b { storeMatrices b.mul s c with tracker := none }
        c.viewport).1.collections c.viewport = some d := by
    intro d hd
    rcases ensure_spec b { storeMatrices b.mul s c with tracker := none } c.viewport with
      ⟨h, _⟩ | ⟨_, h⟩ | ⟨_, h, _⟩
    · rw [h]; exact hd
    · dsimp only [storeMatrices] at h; rw [hd] at h; cases h
    · dsimp only [storeMatrices] at h; rw [hd] at h; cases h
  unfold render at hr ⊢
  dsimp only at hr hk ⊢
  generalize ensureCollection b { storeMatrices b.mul s c with tracker := none } c.viewport = r at *
  obtain ⟨s1, r⟩ := r
  dsimp only at hk
  cases r with
  | error e => cases hr
  | ok u =>
    dsimp only at hr ⊢
    rw [hk] at hr ⊢
    cases ht : (storeMatrices b.mul s c).transform with
    | none => exact hold
    | some m =>
      simp only [ht] at hr ⊢
      cases hd : b.draw m c.viewport with
      | error e => simp [hd] at hr
      | ok d => exact ⟨d, rfl, by simp⟩

/-! ### C32: one collection and one handler per viewport -/

/-- After any history of renders and resizes, with whatever failures, no viewport has two
collections or two resize handlers, and those that have one have both. -/
theorem one_collection_per_viewport (one : M) (tr : Option Nat) (es : List (REvent M)) :
    (rrun b (rinit one tr : RState M D) es).handlers.Nodup ∧
    dkeys (rrun b (rinit one tr : RState M D) es).collections =
      (rrun b (rinit one tr : RState M D) es).handlers :=
  ⟨(rrun_wired b one tr es).1.nodup, (rrun_wired b one tr es).1.keys⟩

/-- … and when the collections can be made, the viewports that have them are exactly those that
were rendered in. -/
theorem collection_for_each_viewport (one : M) (tr : Option Nat) (es : List (REvent M))
    (hp : b.prepare = .ok ()) (vp : Nat) :
    (rrun b (rinit one tr : RState M D) es).handlers.count vp =
      if vp ∈ (callsOf es).map (·.viewport) then 1 else 0 := by
  obtain ⟨h1, h2⟩ := rrun_wired (D := D) b one tr es
  by_cases h : vp ∈ (callsOf es).map (·.viewport)
  · rw [if_pos h]
    exact List.count_eq_one_of_mem h1.nodup ((h2 hp vp).2 h)
  · rw [if_neg h]
    exact List.count_eq_zero.2 (fun hm => h ((h2 hp vp).1 hm))

/-- C53, as far as it holds: a visual that makes its collection itself puts it in the axes of
each viewport once. -/
theorem drawn_once_partial (one : M) (tr : Option Nat) (es : List (REvent M)) (vp : Nat)
    (hk : b.kind.scatters = false) :
    (rrun b (rinit one tr : RState M D) es).children.count vp ≤ 1 := by
  have h := (rrun_wired (D := D) b one tr es).1
  have he : (rrun b (rinit one tr : RState M D) es).children =
      (rrun b (rinit one tr : RState M D) es).handlers := by
    rw [h.children]
    simp [hk]
  rw [he]
  exact List.nodup_iff_count_le_one.1 h.nodup vp

/-- C53 fails for Points, Markers and Pixels: in every history, each collection is in the axes of
its viewport twice. -/
theorem drawn_once_fails (one : M) (tr : Option Nat) (es : List (REvent M)) (vp : Nat)
    (hk : b.kind.scatters = true) (hv : vp ∈ (rrun b (rinit one tr : RState M D) es).handlers) :
    (rrun b (rinit one tr : RState M D) es).children.count vp = 2 := by
  have h := (rrun_wired (D := D) b one tr es).1
  rw [h.children]
  have hn := h.nodup
  generalize (rrun b (rinit one tr : RState M D) es).handlers = hs at *
  simp only [hk, if_true]
  induction hs with
  | nil => cases hv
  | cons x hs ih =>
    rw [List.nodup_cons] at hn
    simp only [List.flatMap_cons, List.count_append]
    by_cases hx : x = vp
    · subst hx
      have h0 : (hs.flatMap (fun vp => [vp, vp])).count x = 0 := by
        rw [List.count_eq_zero]
        simpa using hn.1
      rw [h0]
      simp
    · have hv' : vp ∈ hs := by
        rcases List.mem_cons.1 hv with h | h
        · exact absurd h.symm hx
        · exact h
      have h0 : ([x, x] : List Nat).count vp = 0 := by
        rw [List.count_eq_zero]
        simpa using fun h => hx h.symm
      simp only [h0, Nat.zero_add]
      exact ih hv' hn.2

/-! ### C33: tracking -/

/-- A render that returns leaves tracking as it was. -/
theorem tracking_kept_partial (s : RState M D) (c : RCall M) (h : (render b s c).2 = .ok ()) :
    (render b s c).1.tracker = s.tracker := by
  rcases render_tracker b s c with ⟨_, h'⟩ | ⟨⟨e, h'⟩, _⟩
  · exact h'
  · rw [h] at h'; cases h'

/-- A render that raises turns tracking off. -/
theorem tracking_lost (s : RState M D) (c : RCall M) (e : Err) (h : (render b s c).2 = .error e) :
    (render b s c).1.tracker = none := by
  rcases render_tracker b s c with ⟨h', _⟩ | ⟨_, h'⟩
  · rw [h] at h'; cases h'
  · exact h'

theorem renders_stay_off (vps : List Nat) {s : RState M D} (h : s.tracker = none) :
    (vps.foldl (fun s vp => (render b s ⟨vp, none, none, none⟩).1) s).tracker = none := by
  induction vps generalizing s with
  | nil => exact h
  | cons vp vps ih =>
    refine ih ?_
    rcases render_tracker b s ⟨vp, none, none, none⟩ with ⟨_, h'⟩ | ⟨_, h'⟩
    · rw [h']; exact h
    · exact h'

/-- … and it stays off whatever is rendered afterwards. -/
theorem tracking_stays_lost {s : RState M D} (h : s.tracker = none) (es : List (REvent M)) :
    (rrun b s es).tracker = none := by
  induction es using List.reverseRecOn with
  | nil => exact h
  | append_singleton es e ih =>
    rw [rrun_snoc]
    cases e with
    | render c =>
      rcases render_tracker b (rrun b s es) c with ⟨_, h'⟩ | ⟨_, h'⟩
      · simp only [rstep]; rw [h']; exact ih
      · exact h'
    | resize cv => exact renders_stay_off b _ ih

end rendering

/-- A visual over numbers as 1×1 matrices (0 has the wrong shape); drawing fails in viewport 9. -/
def rdemo : RBody Nat Nat :=
  ⟨.points, fun vp => vp / 4, fun a c => if a = 0 ∨ c = 0 then none else some (a * c), .ok (),
    fun m vp => if vp = 9 then .error .notImplemented else .ok (m * 100 + vp)⟩

example : (render rdemo (rrun rdemo (rinit 1 (some 7))
      [.render ⟨1, some 2, none, none⟩, .resize 0, .render ⟨2, none, some 3, none⟩,
       .render ⟨9, some 5, none, none⟩]) ⟨1, none, none, some 7⟩).2 = .ok () ∧
    lastProduct rdemo.mul 1 (callsOf
      [.render ⟨1, some 2, none, none⟩, .resize 0, .render ⟨2, none, some 3, none⟩,
       .render ⟨9, some 5, none, none⟩] ++ [⟨1, none, none, some 7⟩]) = some 105 := by
  decide +kernel

example : (rrun rdemo (rinit 1 (some 7)) [.render ⟨1, some 2, none, none⟩, .resize 0,
    .render ⟨2, none, some 3, none⟩, .render ⟨1, none, none, none⟩]).handlers = [1, 2] := by
  decide +kernel

/-- C33 fails: one render that raises, and tracking is off. -/
theorem tracking_kept_fails :
    ∃ c : RCall Nat, (render rdemo (rinit 1 (some 7)) c).2 = .error .notImplemented ∧
      (rinit 1 (some 7) : RState Nat Nat).tracker = some 7 ∧
      (render rdemo (rinit 1 (some 7)) c).1.tracker = none :=
  ⟨⟨9, none, none, none⟩, by decide +kernel⟩

example : (render rdemo (rinit 1 (some 7)) ⟨1, some 2, none, none⟩).2 = .ok () ∧
    (render rdemo (rinit 1 (some 7)) ⟨1, some 2, none, none⟩).1.tracker = some 7 := by
  decide +kernel

/-! ### C52: a resize redraws what was there -/

section redraw
variable {M D : Type} (b : RBody M D)

/-- Whatever was drawn in a viewport last was drawn with the remembered matrices. -/
def Fresh (s : RState M D) : Prop :=
  ∀ vp d, dget s.collections vp = some (some d) → ∃ m, s.transform = some m ∧ b.draw m vp = .ok d

theorem render_repeats {s : RState M D} (hf : Fresh b s)
    (ht : s.transform = (b.mul s.proj s.view).bind (fun pv => b.mul pv s.model)) {vp : Nat} {d : D}
    (hd : dget s.collections vp = some (some d)) :
    (render b s ⟨vp, none, none, none⟩) = (s, .ok ()) ∨
      ∃ s', (render b s ⟨vp, none, none, none⟩) = (s', .ok ()) ∧
        (∀ v, dget s'.collections v = dget s.collections v) ∧ s'.model = s.model ∧
        s'.view = s.view ∧ s'.proj = s.proj ∧ s'.transform = s.transform ∧
        s'.handlers = s.handlers := by
  obtain ⟨m, hm, hdr⟩ := hf vp d hd
  right
  have hs : storeMatrices b.mul s ⟨vp, none, none, none⟩ = s := by
    simp only [storeMatrices, Option.getD_none, ← ht]
  unfold render ensureCollection
  simp only [hs, hd, hm, hdr]
  refine ⟨_, rfl, ?_, rfl, rfl, rfl, rfl, rfl⟩
  intro v
  rw [dget_dset]
  by_cases h : vp = v
  · subst h; simp [hd]
  · simp [h]

theorem renders_repeat (vps : List Nat) {s : RState M D} (hf : Fresh b s)
    (ht : s.transform = (b.mul s.proj s.view).bind (fun pv => b.mul pv s.model))
    (hv : ∀ vp ∈ vps, ∃ d, dget s.collections vp = some (some d)) :
    ∀ v, dget (vps.foldl (fun s vp => (render b s ⟨vp, none, none, none⟩).1) s).collections v =
      dget s.collections v := by
  induction vps generalizing s with
  | nil => exact fun _ => rfl
  | cons vp vps ih =>
    intro v
    obtain ⟨d, hd⟩ := hv vp (by simp)
    rw [List.foldl_cons]
    rcases render_repeats b hf ht hd with h | ⟨s', h, hc, h1, h2, h3, h4, _⟩
    · rw [h]
      exact ih hf ht (fun x hx => hv x (List.mem_cons_of_mem _ hx)) v
    · rw [h]
      dsimp only
      rw [ih (s := s') ?_ ?_ ?_ v, hc]
      · intro vp d hd
        rw [hc] at hd
        rw [h4]
        exact hf vp d hd
      · rw [h1, h2, h3, h4]; exact ht
      · intro x hx
        obtain ⟨d, hd⟩ := hv x (List.mem_cons_of_mem _ hx)
        exact ⟨d, by rw [hc]; exact hd⟩

/-- Renders that all return, in one viewport only, whatever matrices they are given, leave a
drawing that a resize repeats unchanged. -/
theorem resize_repeats_partial (one : M) (tr : Option Nat) (es : List (REvent M)) (c : RCall M)
    (cv : Nat)
    (hone : ∀ c' ∈ callsOf es, c'.viewport = c.viewport)
    (hr : (render b (rrun b (rinit one tr) es) c).2 = .ok ())
    (hp : (lastProduct b.mul one (callsOf es ++ [c])).isSome) :
    ∀ v, dget (rrun b (rinit one tr : RState M D) (es ++ [.render c, .resize cv])).collections v =
      dget (rrun b (rinit one tr : RState M D) (es ++ [.render c])).collections v := by
  have hrun : rrun b (rinit one tr : RState M D) (es ++ [.render c]) =
      (render b (rrun b (rinit one tr) es) c).1 := rrun_snoc _ _ _ _
  have hrun2 : rrun b (rinit one tr : RState M D) (es ++ [.render c, .resize cv]) =
      resize b (render b (rrun b (rinit one tr) es) c).1 cv := by
    rw [show es ++ [REvent.render c, .resize cv] = (es ++ [.render c]) ++ [.resize cv] by simp,
      rrun_snoc, hrun]
    rfl
  rw [hrun, hrun2]
  have happ := render_applies_product b one tr es c hr
  have hw := rrun_wired (D := D) b one tr (es ++ [.render c])
  have hrem := rrun_remembers (D := D) b one tr es
  obtain ⟨m, hm⟩ := Option.isSome_iff_exists.1 hp
  rw [hm] at happ
  obtain ⟨d, hd1, hd2⟩ := happ
  rw [hrun] at hw
  obtain ⟨e1, e2, e3, e4⟩ := render_matrices_eq b (rrun b (rinit one tr) es : RState M D) c
  have hT : (render b (rrun b (rinit one tr) es : RState M D) c).1.transform = some m := by
    rw [e4, ← hm]
    obtain ⟨g1, g2, g3⟩ := hrem
    simp only [lastProduct, List.map_append, List.map_cons, List.map_nil, lastGiven_snoc, g1, g2, g3]
  have hviews : ∀ vp ∈ (render b (rrun b (rinit one tr) es : RState M D) c).1.handlers,
      vp = c.viewport := by
    have hk : ∀ vp ∈ (rrun b (rinit one tr) es : RState M D).handlers, vp = c.viewport := by
      clear hrun hrun2 hd2 hw hrem hT e1 e2 e3 e4 hr hp hm
      induction es using List.reverseRecOn with
      | nil => intro vp h; simp [rrun, rinit] at h
      | append_singleton es e ih =>
        rw [rrun_snoc]
        have ih := ih (fun c' hc' => hone c' (by
          unfold callsOf at hc' ⊢
          rw [List.filterMap_append]
          exact List.mem_append_left _ hc'))
        have hw := (rrun_wired (D := D) b one tr es).1
        cases e with
        | render c1 =>
          have hc1 := hone c1 (by simp [callsOf])
          rcases (render_wired b hw c1).2 with ⟨h, _⟩ | ⟨h, _⟩
          · simp only [rstep]; rw [h]; exact ih
          · simp only [rstep]; rw [h]
            intro vp hvp
            rcases List.mem_append.1 hvp with h | h
            · exact ih vp h
            · rw [List.mem_singleton.1 h]; exact hc1
        | resize cv' =>
          simp only [rstep]
          rw [(resize_wired b hw cv').2]
          exact ih
    rcases (render_wired b (rrun_wired (D := D) b one tr es).1 c).2 with ⟨h, _⟩ | ⟨h, _⟩
    · rw [h]; exact hk
    · rw [h]
      intro vp hvp
      rcases List.mem_append.1 hvp with h | h
      · exact hk vp h
      · exact List.mem_singleton.1 h
  refine renders_repeat b _ ?_ ?_ ?_
  · intro vp d' hd'
    have : vp = c.viewport := hviews vp (by
      rw [← hw.1.keys, mem_dkeys]; exact ⟨_, hd'⟩)
    subst this
    rw [hd2] at hd'
    cases hd'
    exact ⟨m, hT, hd1⟩
  · rw [e4, e1, e2, e3]
  · intro vp hvp
    rw [hviews vp (List.mem_filter.1 hvp).1]
    exact ⟨d, hd2⟩

end redraw

/-- C52 fails with two viewports: the matrices are those of the visual, not of the viewport, so
that a resize draws the first viewport with the matrices given for the second. -/
theorem resize_repeats_fails :
    dget (rrun rdemo (rinit 1 none) [.render ⟨1, some 2, none, none⟩,
      .render ⟨2, some 3, none, none⟩]).collections 1 = some (some 201) ∧
    dget (rrun rdemo (rinit 1 none) [.render ⟨1, some 2, none, none⟩,
      .render ⟨2, some 3, none, none⟩, .resize 0]).collections 1 = some (some 301) := by
  decide +kernel

example : (∀ c' ∈ callsOf [REvent.render ⟨1, some 2, none, none⟩, .resize 0],
      c'.viewport = (⟨1, none, some 3, none⟩ : RCall Nat).viewport) ∧
    (render rdemo (rrun rdemo (rinit 1 none) [.render ⟨1, some 2, none, none⟩, .resize 0])
      ⟨1, none, some 3, none⟩).2 = .ok () ∧
    (lastProduct rdemo.mul 1 (callsOf [.render ⟨1, some 2, none, none⟩, .resize 0]
      ++ [⟨1, none, some 3, none⟩])).isSome := by
  decide +kernel

/-! ### C29: elements keep their attributes -/

/-- Whatever order the depth sort chooses, the elements drawn are the elements meant, each once
and each with its own colours, width and size, provided each colour attribute gives either one
colour per element or one colour for all, and a single colour has not as many components as
there are elements. -/
theorem drawn_keeps_attributes_partial {G : Type} (keys : List ℚ) (idx : List Nat)
    (shapes : List G) (fill line width size : Attr)
    (hs : IsArgsort keys idx) (hl : keys.length = shapes.length)
    (hf : FitsColour shapes.length fill) (hli : FitsColour shapes.length line)
    (hw : FitsWidth shapes.length width) :
    (drawn idx shapes fill line width size).Perm (meant shapes fill line width size) := by
  have hp : idx.Perm (List.range shapes.length) := hl ▸ hs.1
  have hlen : idx.length = shapes.length := by simpa using hp.length_eq
  have heq : drawn idx shapes fill line width size =
      idx.map (fun i => ⟨shapes[i]?, meantColour shapes.length fill i,
        meantColour shapes.length line i, meantWidth shapes.length width i,
        meantSize shapes.length size i⟩) := by
    apply List.ext_getElem?
    intro k
    unfold drawn
    rw [List.getElem?_map, List.getElem?_map]
    by_cases hk : k < shapes.length
    · have hk' : k < idx.length := hlen ▸ hk
      have hi : idx[k]? = some idx[k] := List.getElem?_eq_getElem hk'
      rw [List.getElem?_range hk, hi]
      simp only [Option.map_some]
      rw [colourAt_sortAttr hp hf hi, colourAt_sortAttr hp hli hi, widthAt_sortAttr hp hw hi,
        sortSizes_getElem? hp size hi, permute_getElem? (perm_range_lt hp), hi]
      rfl
    · rw [List.getElem?_eq_none (by simpa using hk), List.getElem?_eq_none (by omega)]
      rfl
  rw [heq]
  exact hp.map _

/-- The same for paths and polygons, when they are drawn at all. -/
theorem drawn_paths_keep_attributes_partial {G : Type} (keys : List ℚ) (idx : List Nat) (nv : Nat)
    (shapes : List G) (fill line width : Attr) (es : List (Elem G))
    (hs : IsArgsort keys idx) (hl : keys.length = shapes.length)
    (hf : FitsColour shapes.length fill) (hli : FitsColour shapes.length line)
    (hw : FitsWidth shapes.length width)
    (hd : drawnPaths nv idx shapes fill line width = .ok es) :
    es.Perm ((meant shapes fill line width (.other 0)).map (fun e => { e with size := none })) := by
  have hsort : ∀ a a', sortPathAttr shapes.length nv idx a = .ok a' →
      a' = sortAttr shapes.length idx a := by
    intro a a' h
    cases a with
    | other x => cases h; rfl
    | items xs =>
      simp only [sortPathAttr, sortAttr] at h ⊢
      split at h
      · cases h; simp [*]
      · split at h
        · cases h
        · cases h; simp [*]
    | flat xs =>
      simp only [sortPathAttr, sortAttr] at h ⊢
      split at h
      · cases h; simp [*]
      · split at h
        · cases h
        · cases h; simp [*]
  unfold drawnPaths at hd
  cases h1 : sortPathAttr shapes.length nv idx fill with
  | error e => simp [h1, bind, Except.bind] at hd
  | ok f' =>
    cases h2 : sortPathAttr shapes.length nv idx line with
    | error e => simp [h1, h2, bind, Except.bind] at hd
    | ok l' =>
      cases h3 : sortPathAttr shapes.length nv idx width with
      | error e => simp [h1, h2, h3, bind, Except.bind] at hd
      | ok w' =>
        simp only [h1, h2, h3, bind, Except.bind, pure, Except.pure] at hd
        cases hd
        rw [hsort _ _ h1, hsort _ _ h2, hsort _ _ h3]
        have := (drawn_keeps_attributes_partial keys idx shapes fill line width (.other 0)
          hs hl hf hli hw).map (fun e => { e with size := none })
        simpa [drawn, Function.comp_def] using this

/-- C29 fails: a single colour for four points is taken for four items, and its components are
shuffled by the depth sort. -/
theorem drawn_keeps_attributes_fails :
    ∃ (keys : List ℚ) (idx : List Nat) (shapes : List Nat) (fill : Attr),
      IsArgsort keys idx ∧ keys.length = shapes.length ∧ fill = .flat [1, 0, 0, 1/2] ∧
      (∀ e ∈ meant shapes fill (.other 0) (.other 0) (.other 0), e.fill = some [1, 0, 0, 1/2]) ∧
      ∀ e ∈ drawn idx shapes fill (.other 0) (.other 0) (.other 0), e.fill = some [1/2, 0, 0, 1] :=
  ⟨[4, 3, 2, 1], [3, 2, 1, 0], [10, 11, 12, 13], .flat [1, 0, 0, 1/2],
    ⟨by decide, by decide +kernel⟩, rfl, rfl, by decide +kernel, by decide +kernel⟩

/-- … and a list of colours shorter than the list of elements is applied in the order of
drawing: with two colours for four points, which point has which colour depends on the depths. -/
theorem drawn_cycles_in_depth_order_fails :
    (drawn [3, 2, 1, 0] [10, 11, 12, 13] (.items [[1], [0]]) (.other 0) (.other 0) (.other 0)).map
        (fun e => (e.shape, e.fill)) =
      [(some 13, some [1]), (some 12, some [0]), (some 11, some [1]), (some 10, some [0])] ∧
    (drawn [0, 1, 2, 3] [10, 11, 12, 13] (.items [[1], [0]]) (.other 0) (.other 0) (.other 0)).map
        (fun e => (e.shape, e.fill)) =
      [(some 10, some [1]), (some 11, some [0]), (some 12, some [1]), (some 13, some [0])] := by
  decide +kernel

/-- Paths with four vertices cannot be drawn in one colour: its components are taken for colours
of vertices. -/
theorem paths_four_vertices_fails :
    drawnPaths 4 [0, 1] ["path 1", "path 2"] (.other 0) (.flat [1, 0, 0, 1]) (.other 1)
      = .error .notImplemented ∧
    ∃ es, drawnPaths 6 [0, 1] ["path 1", "path 2"] (.other 0) (.flat [1, 0, 0, 1]) (.other 1)
      = .ok es := by
  refine ⟨by decide +kernel, ?_⟩
  exact ⟨_, rfl⟩

example : IsArgsort [3, 1, 2] [1, 2, 0] ∧ FitsColour 3 (.items [[1, 0], [2, 0], [3, 0]]) ∧
    FitsColour 3 (.flat [1, 0, 0, 1]) ∧ FitsWidth 3 (.other 2) := by
  refine ⟨⟨by decide, by decide +kernel⟩, .inl rfl, ?_, trivial⟩
  show (4 : Nat) ≠ 3
  decide

example : (drawn [1, 2, 0] ["a", "b", "c"] (.items [[1], [2], [3]]) (.flat [1, 0, 0, 1]) (.other 2)
    (.flat [7, 8, 9])).map (fun e => (e.shape, e.fill, e.size)) =
    [(some "b", some [2], some (.other 8)), (some "c", some [3], some (.other 9)),
     (some "a", some [1], some (.other 7))] := by
  decide +kernel

/-! ### C30: nearer elements over farther ones -/

/-- In every visual but Pixels, of two elements of different depth the farther is drawn first. -/
theorem farther_first_partial (kind : VKind) (hk : kind ≠ .pixels) (depths : List ℚ)
    (idx : List Nat) (h : IsArgsort (depths.map kind.sortKey) idx) : FartherFirst depths idx := by
  intro k l i j a c hi hj ha hc hlt
  obtain ⟨hp, hsorted⟩ := h
  have hb := perm_range_lt hp
  rw [List.length_map] at hb
  have hlt' : kind.sortKey a < kind.sortKey c := by
    cases kind <;> simp only [VKind.sortKey] <;> first | linarith | exact absurd rfl hk
  by_contra hkl
  have hne : k ≠ l := by
    intro he; subst he
    rw [hi] at hj; cases hj
    rw [ha] at hc; cases hc
    exact lt_irrefl _ hlt
  have hlk : l < k := by omega
  have hb' : ∀ x ∈ idx, x < (depths.map kind.sortKey).length := by simpa using hb
  have e1 : (permute idx (depths.map kind.sortKey))[k]? = some (kind.sortKey a) := by
    rw [permute_getElem? hb', hi]
    simp [ha]
  have e2 : (permute idx (depths.map kind.sortKey))[l]? = some (kind.sortKey c) := by
    rw [permute_getElem? hb', hj]
    simp [hc]
  have := List.pairwise_iff_getElem.1 hsorted l k (List.getElem?_eq_some_iff.1 e2).1
    (List.getElem?_eq_some_iff.1 e1).1 hlk
  rw [(List.getElem?_eq_some_iff.1 e1).2, (List.getElem?_eq_some_iff.1 e2).2] at this
  linarith

/-- Pixels are drawn the other way round, always: of two pixels of different depth the nearer is
drawn first. -/
theorem pixels_nearer_first (depths : List ℚ) (idx : List Nat)
    (h : IsArgsort (depths.map VKind.pixels.sortKey) idx) :
    FartherFirst (depths.map (fun z => -z)) idx := by
  have h' : IsArgsort ((depths.map (fun z => -z)).map VKind.segments.sortKey) idx := by
    rw [List.map_map]
    have : (VKind.segments.sortKey ∘ fun z => -z) = VKind.pixels.sortKey := by
      funext z; simp [VKind.sortKey]
    rw [this]; exact h
  exact farther_first_partial .segments (by decide) _ _ h'

/-- C30 fails for Pixels. -/
theorem farther_first_fails :
    ∃ (depths : List ℚ) (idx : List Nat),
      IsArgsort (depths.map VKind.pixels.sortKey) idx ∧ ¬ FartherFirst depths idx := by
  refine ⟨[1, 2], [0, 1], ⟨by decide, by decide +kernel⟩, fun h => ?_⟩
  have := h 1 0 1 0 2 1 rfl rfl rfl rfl (by decide +kernel)
  exact absurd this (by decide)

example : IsArgsort ([3, 1, 2].map VKind.points.sortKey) [0, 2, 1] :=
  ⟨by decide, by decide +kernel⟩

/-! ### C31: paths partition the vertices -/

/-- A list of sizes: the paths have these sizes and follow each other from the first vertex on,
so that with sizes that add up to the number of vertices every vertex is in its place, exactly
once. -/
theorem paths_of_sizes_partial {α : Type} (xs : List α) (ns : List Nat) (h : ns.sum ≤ xs.length) :
    ∃ ys, cutPaths xs (.sizes (ns.map (fun n : Nat => (n : Int)))) = .ok ys ∧
      ys.map List.length = ns ∧ ys.flatten = xs.take ns.sum ∧
      (ns.sum = xs.length → ys.flatten = xs) := by
  have hf := cutSizes_flatten xs 0 ns
  simp only [List.take_zero, List.nil_append, Nat.zero_add] at hf
  refine ⟨_, rfl, cutSizes_lengths xs 0 ns (by omega), hf, fun he => ?_⟩
  refine Eq.trans hf ?_
  rw [he, List.take_length]

/-- One size: as many paths of this size as there are, from the first vertex on; every vertex is
in one when the size divides their number, and the last few are lost otherwise. -/
theorem paths_of_size_partial {α : Type} (xs : List α) (size : Nat) (hs : 0 < size) :
    ∃ ys, cutPaths xs (.size size) = .ok ys ∧ (∀ y ∈ ys, y.length = size) ∧
      ys.length = xs.length / size ∧ ys.flatten = xs.take (xs.length / size * size) ∧
      (xs.length % size = 0 → ys.flatten = xs) := by
  have hc : (Int.fdiv (xs.length : Int) (size : Int)).toNat = xs.length / size := by
    rw [Int.fdiv_eq_ediv_of_nonneg _ (by omega)]
    exact Int.toNat_natCast (xs.length / size)
  have hf := cutEqual_flatten xs size (xs.length / size)
  have hcut : cutPaths xs (.size size) = .ok ((List.range (xs.length / size)).map
      (fun i : Nat => pySlice xs (i * (size : Int)) ((i + 1) * (size : Int)))) := by
    simp only [cutPaths, cutEqual]
    rw [if_neg (by omega), hc]
  refine ⟨_, hcut, ?_, by simp, hf, ?_⟩
  · intro y hy
    obtain ⟨i, hi, rfl⟩ := List.mem_map.1 hy
    rw [List.mem_range] at hi
    have h1 : ((i : Int) * (size : Int)) = ((i * size : Nat) : Int) := by push_cast; rfl
    have h2 : (((i : Int) + 1) * (size : Int)) = (((i + 1) * size : Nat) : Int) := by
      push_cast; rfl
    rw [h1, h2, pySlice_nat, List.length_drop, List.length_take]
    have h3 : (i + 1) * size ≤ xs.length :=
      le_trans (Nat.mul_le_mul_right _ hi) (Nat.div_mul_le_self _ _)
    rw [Nat.min_eq_left h3, Nat.add_mul]
    omega
  · intro hm
    refine hf.trans ?_
    have := Nat.div_add_mod xs.length size
    rw [hm, Nat.add_zero, Nat.mul_comm] at this
    rw [this, List.take_length]

/-- Lists of indices: each path is made of the vertices its indices name, in this order. -/
theorem paths_of_lists {α : Type} (xs : List α) (ixs : List (List Nat))
    (h : ∀ ix ∈ ixs, ∀ i ∈ ix, i < xs.length) :
    ∃ ys, cutPaths xs (.lists (ixs.map (·.map (fun i : Nat => (i : Int))))) = .ok ys ∧
      ys.map (·.map some) = ixs.map (·.map (fun i => xs[i]?)) := by
  have hone : ∀ ix : List Nat, (∀ i ∈ ix, i < xs.length) →
      ∃ y, (ix.map (fun i : Nat => (i : Int))).mapM (npGet xs) = .ok y ∧
        y.map some = ix.map (fun i => xs[i]?) := by
    intro ix hix
    induction ix with
    | nil => exact ⟨[], rfl, rfl⟩
    | cons i ix ih =>
      obtain ⟨y, hy1, hy2⟩ := ih (fun j hj => hix j (List.mem_cons_of_mem _ hj))
      have hi : i < xs.length := hix i (by simp)
      refine ⟨xs[i] :: y, ?_, ?_⟩
      · rw [List.map_cons, List.mapM_cons, npGet_nat (List.getElem?_eq_getElem hi), hy1]; rfl
      · rw [List.map_cons, List.map_cons, hy2, List.getElem?_eq_getElem hi]
  induction ixs with
  | nil => exact ⟨[], rfl, rfl⟩
  | cons ix ixs ih =>
    obtain ⟨ys, hy1, hy2⟩ := ih (fun j hj => h j (List.mem_cons_of_mem _ hj))
    obtain ⟨y, h1, h2⟩ := hone ix (h ix (by simp))
    refine ⟨y :: ys, ?_, ?_⟩
    · simp only [cutPaths] at hy1 ⊢
      rw [List.map_cons, List.mapM_cons, h1, hy1]; rfl
    · rw [List.map_cons, List.map_cons, hy2, h2]

/-- C31 fails: the vertices that do not fill a path are lost, and so are those beyond the sizes;
sizes that exceed the vertices give shorter paths instead of an error; the size 0 divides by
zero. -/
theorem paths_partition_fails :
    cutPaths [1, 2, 3, 4, 5] (.size 2) = .ok [[1, 2], [3, 4]] ∧
    cutPaths [1, 2, 3, 4, 5] (.sizes [2, 1]) = .ok [[1, 2], [3]] ∧
    cutPaths [1, 2, 3, 4, 5] (.sizes [3, 4]) = .ok [[1, 2, 3], [4, 5]] ∧
    cutPaths [1, 2, 3, 4, 5] (.size 0) = .error .zeroDivision := by
  decide +kernel

example : cutPaths [1, 2, 3, 4, 5, 6] (.sizes [2, 1, 3]) = .ok [[1, 2], [3], [4, 5, 6]] ∧
    cutPaths [1, 2, 3, 4, 5, 6] (.size 3) = .ok [[1, 2, 3], [4, 5, 6]] ∧
    cutPaths [1, 2, 3] (.lists [[0, 1, 0], [2, -1]]) = .ok [[1, 2, 1], [3, 3]] := by
  decide +kernel

end Verif
