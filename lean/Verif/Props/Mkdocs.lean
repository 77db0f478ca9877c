import Verif.Lemmas.Mkdocs
import Verif.Lemmas.Api
import Verif.Props.Scene
import Verif.Props.Listing
/-! # C67: the examples of the documentation -/

namespace Verif

/-- The full claim of C67: whatever happened before, an example prints what it prints when it
runs alone. -/
def ExamplesIndependent (P : Prog) (ij : Codec) : Prop :=
  ∀ (w : World) (as : List Act), LiveSession P w.alone as → ∀ fuel ansi json,
    (mkdocsDump P ij fuel (runActs P (mkdocsEnter w) (as.map (Act.shift w.heap.length))) ansi
        json).map Prod.snd =
      (mkdocsDump P ij fuel (runActs P w.alone as) ansi json).map Prod.snd

/-- C67 (part). An example that only refers to its own objects behaves as if it ran alone,
whatever objects, queues, commands and identifiers the session held before: its actions have the
same outcomes, and the listing and the JSON document printed at the end are the same, delayed
conversions that build objects included. Missing: sessions whose active queue is read-only. -/
theorem examples_independent_partial (P : Prog) (hP : P.SigsWF) (hc : PlainConvs P) (ij : Codec)
    (w : World) (hw : w.Writable) (hpk : NoPeek P w.heap.length 0) (as : List Act)
    (hl : LiveSession P w.alone as) :
    outcomes P (mkdocsEnter w) (as.map (Act.shift w.heap.length)) = outcomes P w.alone as ∧
    ∀ fuel ansi json,
      (mkdocsDump P ij fuel (runActs P (mkdocsEnter w) (as.map (Act.shift w.heap.length))) ansi
          json).map Prod.snd =
        (mkdocsDump P ij fuel (runActs P w.alone as) ansi json).map Prod.snd := by
  obtain ⟨h1, h2⟩ := Twin.acts hP hpk (twin_enter hw) hl
  refine ⟨h1, fun fuel ansi json => ?_⟩
  rw [mkdocsDump_getQueue, mkdocsDump_getQueue P ij fuel (runActs P w.alone as)]
  have h3 := h2.getQueue
  have key := Twins.mkdocsDump hP hc hpk (ij := ij) (fuel := fuel)
    ⟨h3, getQueue_none_active _, getQueue_none_active _⟩ ansi json
  generalize mkdocsDump P ij fuel (getQueue (runActs P w.alone as) none).1 ansi json = y at key ⊢
  generalize mkdocsDump P ij fuel (getQueue (runActs P (mkdocsEnter w) _) none).1 ansi json = y2
    at key ⊢
  rcases y with _ | ⟨y, ry⟩ <;> rcases y2 with _ | ⟨y2, ry2⟩
  · rfl
  · exact key.elim
  · exact key.elim
  · obtain ⟨k1, _⟩ := key
    dsimp only at k1
    subst k1
    rfl

/-- C67 fails in a session whose active queue was left read-only by a replay that failed (C07):
the example prints nothing. -/
theorem examples_independent_fails : ¬ ExamplesIndependent demo (fun _ _ => none) := by
  intro h
  have := h (runOps demo World.fresh [.create "Foo" [.int 1] [] false, .queue (some "b"),
    .call 0 "set_value" [.int 5] [] false, .resetObjects, .run 1])
    [.create "Foo" [.int 3] []] ⟨⟨by simp, by simp⟩, trivial⟩ 9 true false
  revert this
  decide +kernel

/-- C67 fails for the identifiers: an example numbers its objects from 1 again, although
objects made before are still there with these identifiers. -/
theorem example_ids_unique_fails :
    (runActs demo (mkdocsEnter (runOps demo World.fresh [.create "Foo" [.int 1] [] false]))
      [.create "Foo" [.int 2] [], .call 1 "attach" [.obj 0] []]).heap.map Obj.id = [1, 1] := by
  decide +kernel

theorem registryAfter_closed (base : Nat) : CallClosed (fun w => base ≤ w.heap.length ∧
    ∀ n r, dget w.objects n = some r → base ≤ r) where
  newObj := by
    intro w cls ⟨h1, h2⟩
    refine ⟨by simp only [newObject, List.length_append, List.length_singleton]; omega, ?_⟩
    intro n r hn
    simp only [newObject] at hn
    split at hn
    · rw [dget_dset] at hn
      split at hn
      · cases hn; exact h1
      · exact h2 n r hn
    · exact h2 n r hn
  log := by
    intro w r m b h
    unfold logCall
    split
    · exact h
    · exact ⟨by simpa using h.1, h.2⟩
  getq := by
    intro w h
    unfold getQueue getQueue.activeOrNew
    cases w.active <;> exact h
  push := fun w q u cls meth ps h _ _ _ => h

/-- Within an example, identifiers lead to objects of the example only, whatever was made before. -/
theorem example_registry (P : Prog) (w : World) (as : List Act) (n : Int) (r : Nat)
    (h : dget (runActs P (mkdocsEnter w) as).objects n = some r) : w.heap.length ≤ r := by
  have key : ∀ (as : List Act) (v : World), (w.heap.length ≤ v.heap.length ∧
      ∀ n r, dget v.objects n = some r → w.heap.length ≤ r) →
      w.heap.length ≤ (runActs P v as).heap.length ∧
      ∀ n r, dget (runActs P v as).objects n = some r → w.heap.length ≤ r := by
    intro as
    induction as with
    | nil => exact fun v h => h
    | cons a as ih =>
      intro v hv
      apply ih
      cases a with
      | create cls args kwargs =>
        have := (registryAfter_closed w.heap.length).construct (P := P) (cls := cls) (args := args)
          (kwargs := kwargs) (nc := false) hv
        simp only [Act.op, step]
        split <;> (rename_i heq; rw [heq] at this; exact this)
      | call r f args kwargs => exact (registryAfter_closed w.heap.length).callMethod hv
  refine (key as (mkdocsEnter w) ⟨?_, ?_⟩).2 n r h
  · show w.heap.length ≤ (emptyQueue (getQueue w none).1 (getQueue w none).2).heap.length
    simp only [emptyQueue, setQueue, getQueue_none_heap]
    exact Nat.le_refl _
  · intro n r hn
    cases hn

/-- An object made before has the identifier 1; within the example, 1 is the object of the example. -/
example : (runActs demo (mkdocsEnter (runOps demo World.fresh [.create "Foo" [.int 1] [] false]))
    [.create "Foo" [.int 2] []]).objects = [(1, 1)] := by
  decide +kernel

/-! ## The library -/

theorem gsp_noPeek (A : ArrayInfo) (base d : Nat) : NoPeek (gspProg A) base d := by
  have hlen : ∀ v, hasLen (shiftVal base v) = hasLen v := by intro v; cases v <;> rfl
  have hind : ∀ v, indicesRaise (shiftVal base v) = indicesRaise v := by
    intro v; cases v <;> rfl
  have key : ∀ (o o' : Obj) f b, o'.cls = o.cls →
      gspRaises o' f (shiftArgs base b) = gspRaises o f b := by
    intro o o' f b hcls
    unfold gspRaises
    rw [hcls, dget_shiftArgs, dget_shiftArgs]
    split
    · rfl
    · cases dget b "positions" with
      | none => rfl
      | some v =>
        simp only [Option.map_some, hlen]
        split
        · cases dget b "indices" with
          | none => rfl
          | some i => exact hind i
        · rfl
  intro o f b
  exact ⟨key o _ f b rfl, key o _ f b rfl⟩

theorem gsp_plainConvs (A : ArrayInfo) : PlainConvs (gspProg A) := by
  intro f v
  constructor
  · intro g hg y hy
    replace hg : apiConv A f v = .pure g := hg
    unfold apiConv at hg
    split at hg
    all_goals try (split at hg <;> cases hg; done)
    all_goals cases hg
    all_goals dsimp only at hy
    all_goals first
      | cases hy; done
      | (cases hy; rfl)
      | (split at hy
         · first
            | (cases hy; rfl)
            | (unfold toColor at hy; split at hy <;> cases hy; rfl)
            | (split at hy <;> cases hy; rfl)
         · cases hy)
  · intro cls kw hk p hp
    replace hk : apiConv A f v = .make cls kw := hk
    unfold apiConv at hk
    have h12 : (if isTracked v = true then ConvFn.look A.bufferId else .make "Buffer" A.kwargs) =
        .make cls kw → kw = A.kwargs := by
      intro h
      split at h <;> cases h
      rfl
    split at hk <;> first
      | (cases hk; done)
      | have := h12 hk
    subst this
    all_goals
      unfold ArrayInfo.kwargs at hp
      split at hp
      · simp only [List.mem_cons, List.not_mem_nil, or_false] at hp
        rcases hp with rfl | rfl | rfl <;> rfl
      · cases hp

/-- C67 (part). The examples of the library's own documentation. -/
theorem gsp_examples_independent_partial (A : ArrayInfo) (ij : Codec) (w : World)
    (hw : w.Writable) (as : List Act) (hl : LiveSession (gspProg A) w.alone as) :
    outcomes (gspProg A) (mkdocsEnter w) (as.map (Act.shift w.heap.length)) =
      outcomes (gspProg A) w.alone as ∧
    ∀ fuel ansi json,
      (mkdocsDump (gspProg A) ij fuel
        (runActs (gspProg A) (mkdocsEnter w) (as.map (Act.shift w.heap.length))) ansi json).map
          Prod.snd =
        (mkdocsDump (gspProg A) ij fuel (runActs (gspProg A) w.alone as) ansi json).map Prod.snd :=
  examples_independent_partial _ (gspProg_wf A) (gsp_plainConvs A) ij w hw
    (gsp_noPeek A _ _) as hl

/-- A session of the library with history: objects, a second queue, commands. -/
def busySession (A : ArrayInfo) : World := runOps (gspProg A) (World.start allConverters)
  [.create "Canvas" [.int 4, .int 3, .float 1] [] false, .queue (some "work"),
   .create "Buffer" [.int 2, .inst "Float32DType" 1, .none] [] false]

/-- An example: pixels at positions given by an array, a canvas, a viewport of this canvas, and
an argument which is refused. -/
def smallExample : List Act :=
  [.create "Pixels" [.inst "ndarray" 3, .inst "Color" 0] [],
   .create "Canvas" [.int 4, .int 3, .float 1] [],
   .create "Viewport" [.obj 1, .int 0, .int 0, .int 4, .int 3, .inst "Color" 0] [],
   .call 1 "render" [.int 1] []]

/-- Arrays of two items. -/
def twoItems : ArrayInfo := { count := fun _ => 2, dtype := fun _ => 0, content := fun _ => 0 }

example : LiveSession (gspProg twoItems) (busySession twoItems).alone smallExample := by
  refine ⟨⟨by simp, by simp⟩, ⟨by simp, by simp⟩, ⟨?_, by simp⟩, ⟨by simp, by simp⟩, trivial⟩
  intro x hx
  simp at hx
  subst hx
  decide +kernel

example :
    let A := twoItems
    let w := busySession A
    w.heap.length = 2 ∧ (commandsOf w 1).length = 1 ∧
    (outcomes (gspProg A) (mkdocsEnter w) (smallExample.map (Act.shift 2))).map Except.toBool =
      [true, true, true, false] ∧
    ((mkdocsDump (gspProg A) (apiCodec (fun _ => "") (fun _ => "")) 9
        (runActs (gspProg A) (mkdocsEnter w) (smallExample.map (Act.shift 2))) true true).bind
      (fun r => r.2.toOption)).map (fun r => (r.1.map (fun l => l.map (fun e => (e.method, e.id))),
        r.2.map (fun l => l.map JCmd.method))) =
    some (some [("visual.Pixels", 1), ("core.Canvas", 2), ("core.Viewport", 3), ("core.Buffer", 4)],
      some [some "visual.Pixels", some "core.Canvas", some "core.Viewport", some "core.Buffer",
        some "core.Buffer"]) := by
  decide +kernel

/-! ## The source of the example -/

theorem dropWhile_prefix {p : Char → Bool} : ∀ {pre : List Char} (t : List Char),
    (∀ c ∈ pre, p c = true) → (pre ++ t).dropWhile p = t.dropWhile p
  | [], _, _ => rfl
  | c :: pre, t, h => by
    rw [List.cons_append, List.dropWhile_cons, if_pos (h c (by simp))]
    exact dropWhile_prefix t (fun d hd => h d (List.mem_cons_of_mem _ hd))

theorem indentOf_ge {pre t : List Char} (h : ∀ c ∈ pre, c.isWhitespace = true) :
    pre.length ≤ indentOf (pre ++ t) := by
  unfold indentOf
  rw [dropWhile_prefix t h, List.length_append]
  have : (t.dropWhile Char.isWhitespace).length ≤ t.length :=
    (List.dropWhile_sublist _).length_le
  omega

theorem indentOf_eq {pre t : List Char} {c : Char} (h : ∀ c ∈ pre, c.isWhitespace = true)
    (hc : c.isWhitespace = false) : indentOf (pre ++ c :: t) = pre.length := by
  unfold indentOf
  rw [dropWhile_prefix _ h, List.dropWhile_cons, if_neg (by simp [hc]), List.length_append]
  omega

/-- C67 (part). The source printed for an example is its block, line by line, without its
indentation: from the line after `with`, up to the first line with less indentation or the end of
the file. Missing: see the theorems below. -/
theorem example_source_partial (n : Nat) (b : List Char) (bs rest : List (List Char)) (fuel : Nat)
    (hb : ∃ pre c t, b = pre ++ c :: t ∧ pre.length = n ∧ c.isWhitespace = false ∧
      ∀ d ∈ pre, d.isWhitespace = true)
    (hn : 0 < n) (hbs : ∀ l ∈ bs, InBlock n l)
    (hrest : rest = [] ∨ ∃ l ls, rest = l :: ls ∧ AfterBlock n l)
    (hf : bs.length + 1 < fuel) :
    ∃ out, sourceLoop fuel 0 (b :: bs ++ rest) [] = some out ∧
      List.Forall₂ (Dedented n) (b :: bs) out := by
  obtain ⟨pre, c, t, rfl, hpl, hcw, hpw⟩ := hb
  obtain ⟨fuel, rfl⟩ : ∃ k, fuel = k + 1 := ⟨fuel - 1, by omega⟩
  have hi : indentOf (pre ++ c :: t) = n := by rw [indentOf_eq hpw hcw, hpl]
  have hne : pre ++ c :: t ≠ ['\n'] := by
    intro h
    cases pre with
    | nil => rw [← hpl] at hn; exact Nat.lt_irrefl _ hn
    | cons x pre =>
      simp at h
  have hloop : ∀ (bs : List (List Char)) (k : Nat) (acc : List (List Char)),
      (∀ l ∈ bs, InBlock n l) → bs.length < k →
      ∃ out, sourceLoop k n (bs ++ rest) acc = some (acc ++ out) ∧
        List.Forall₂ (Dedented n) bs out := by
    intro bs
    induction bs with
    | nil =>
      intro k acc _ hk
      obtain ⟨k, rfl⟩ : ∃ j, k = j + 1 := ⟨k - 1, by simp at hk; omega⟩
      refine ⟨[], ?_, .nil⟩
      unfold sourceLoop
      rw [if_neg (by omega), List.nil_append, List.append_nil]
      rcases hrest with rfl | ⟨l, ls, rfl, pr, d, tl, rfl, h1, h2, h3⟩
      · exact if_pos (Or.inr rfl)
      · exact if_pos (Or.inl ⟨by dsimp only [List.headD_cons]; rw [indentOf_eq h3 h2]; exact h1,
          by simp [isBlank, h2]⟩)
    | cons l bs ih =>
      intro k acc hin hk
      obtain ⟨k, rfl⟩ : ∃ j, k = j + 1 := ⟨k - 1, by simp at hk; omega⟩
      obtain ⟨⟨lt, hl, hln⟩, hsh⟩ := hin l (by simp)
      have hstay : ¬ (indentOf l < n ∧ isBlank l = false ∨ l = []) := by
        rintro (⟨h1, h2⟩ | h1)
        · rcases hsh with rfl | ⟨pr, tl, rfl, h3, h4⟩
          · revert h2; decide
          · have := indentOf_ge (t := tl) (fun c hc => (h4 c hc).1)
            omega
        · rw [hl] at h1; simp at h1
      obtain ⟨out, h1, h2⟩ := ih k (acc ++ [if l = ['\n'] then l else l.drop n])
        (fun x hx => hin x (List.mem_cons_of_mem _ hx)) (by simp at hk; omega)
      refine ⟨(if l = ['\n'] then l else l.drop n) :: out, ?_, .cons ?_ h2⟩
      · unfold sourceLoop
        rw [if_neg (by omega), List.cons_append]
        dsimp only [List.headD_cons, List.tail_cons]
        refine (if_neg hstay).trans (h1.trans ?_)
        rw [List.append_assoc]
        rfl
      · rcases hsh with rfl | ⟨pr, tl, rfl, h3, h4⟩
        · exact Or.inl ⟨rfl, by simp⟩
        · by_cases hnl : pr ++ tl = ['\n']
          · exact Or.inl ⟨hnl, by rw [if_pos hnl]⟩
          · refine Or.inr ⟨pr, ?_, h3, fun c hc => (h4 c hc).1⟩
            rw [if_neg hnl, ← h3]
            simp
  obtain ⟨out, h1, h2⟩ := hloop bs fuel [(pre ++ c :: t).drop n] hbs (by omega)
  refine ⟨(pre ++ c :: t).drop n :: out, ?_, .cons ?_ h2⟩
  · unfold sourceLoop
    dsimp only [List.cons_append, List.headD_cons, List.tail_cons]
    rw [if_pos rfl, hi, if_neg hne, List.nil_append, h1]
    simp
  · exact Or.inr ⟨pre, by rw [← hpl]; simp, hpl, hpw⟩

/-- A block of two lines with a blank line between them. -/
example : sourceLoop 9 0 ["    a = 1\n".toList, "\n".toList, "      b\n".toList, "c\n".toList] [] =
    some ["a = 1\n".toList, "\n".toList, "  b\n".toList] := by decide

/-- C67 fails: a line of spaces shorter than the indentation loses its end of line, so that the
next line is printed behind it. -/
theorem example_source_fails :
    sourceLoop 9 0 ["    a\n".toList, "  \n".toList, "    b\n".toList] [] =
      some ["a\n".toList, [], "b\n".toList] := by decide

/-- C67 fails: when a block begins with an empty line, one character is taken for the
indentation. -/
theorem example_source_blank_fails :
    sourceLoop 9 0 ["\n".toList, "    a\n".toList, "b\n".toList] [] =
      some ["\n".toList, "   a\n".toList] := by decide

/-- C67 fails: an example on the line of the `with` itself, with only unindented lines behind
it, is never printed: the loop does not end. -/
theorem example_source_hangs_fails (lines acc : List (List Char))
    (h : ∀ l ∈ lines, indentOf l = 0) : ∀ fuel, sourceLoop fuel 0 lines acc = none := by
  intro fuel
  induction fuel generalizing lines acc with
  | zero => rfl
  | succ fuel ih =>
    unfold sourceLoop
    have h0 : indentOf (lines.headD []) = 0 := by
      cases lines with
      | nil => rfl
      | cons l ls => exact h l (by simp)
    dsimp only
    rw [if_pos rfl, h0]
    exact ih _ _ (fun l hl => h l (List.mem_of_mem_tail hl))

example : ∀ l ∈ ["x = 1\n".toList, "y = 2\n".toList], indentOf l = 0 := by decide

end Verif
