import Verif.Lemmas.Regress
import Verif.Props.Checker
/-
C99: the regression test of the examples.
-/

namespace Verif

variable {sort : SortFn} {Img : Type}

/-! ### Names of output files -/

/-- Each example writes a file named after it, wherever the examples are, exactly when its title holds
no `.py`. -/
theorem output_name_iff (m : OutMode) (folder title : String) (hs : '/' ∉ title.toList) :
    outputName m (folder ++ "/" ++ (title ++ ".py")) = title ++ m.ext ↔
      ¬ ".py".toList <:+: title.toList := by
  have hb : baseName (folder ++ "/" ++ (title ++ ".py")).toList = title.toList ++ ".py".toList := by
    have e : (folder ++ "/" ++ (title ++ ".py")).toList =
        folder.toList ++ '/' :: (title.toList ++ ".py".toList) := by simp
    rw [e, baseName_folder]
    intro h
    rcases List.mem_append.1 h with h | h
    · exact hs h
    · revert h; decide
  constructor
  · intro h hi
    rw [outputName, hb] at h
    have h2 := congrArg (fun s : String => s.toList.length) h
    have := (removePy_append title.toList).2 hi
    simp only [String.toList_append, List.length_append, String.toList_ofList] at h2
    omega
  · intro h
    rw [outputName, hb, removePy_script _ h]
    simp

example : outputName .image "/home/x.py/examples/points-2d.py" = "points-2d.png" := by decide +kernel
example : outputName .image "/home/examples/my.python.py" = "mython.png" := by decide +kernel

theorem Title.output {t : String} (h : Title t) (m : OutMode) (folder : String) :
    outputName m (folder ++ "/" ++ (t ++ ".py")) = t ++ m.ext :=
  (output_name_iff m folder t h.plain).2 h.once

theorem title_inj {t u e : String} (h : t ++ e = u ++ e) : t = u := by
  have := congrArg String.toList h
  simp only [String.toList_append, List.append_cancel_right_eq] at this
  exact String.toList_inj.1 this

/-- Without `--stop-on-error`, or when no example fails, every example is run: afterwards the output
folder has for each title what its example has written now, what it had before if nothing was written,
and nothing else has changed. -/
theorem run_all_writes (m : OutMode) (folder : String) (run : String → ExampleRun Img) (stop : Bool)
    (titles : List String) (ht : ∀ t ∈ titles, Title t) (out : String → Option (OutFile Img))
    (hrun : stop = true → ∀ t ∈ titles, (run (t ++ ".py")).succeeds = true) :
    (∀ t ∈ titles, (runAll m folder run stop (titles.map (· ++ ".py")) out).2 (t ++ m.ext) =
      (run (t ++ ".py")).writes.or (out (t ++ m.ext))) ∧
    ∀ n, (∀ t ∈ titles, n ≠ t ++ m.ext) →
      (runAll m folder run stop (titles.map (· ++ ".py")) out).2 n = out n := by
  have hall : (runExamples (fun b => (run b).succeeds) stop
      (exampleScripts (titles.map (· ++ ".py")))).2 = exampleScripts (titles.map (· ++ ".py")) := by
    cases stop with
    | false => exact run_examples_all _ _
    | true =>
      have hs : ∀ b ∈ exampleScripts (titles.map (· ++ ".py")), (run b).succeeds = true := by
        intro b hb
        obtain ⟨t, htt, rfl⟩ := (mem_exampleScripts titles b).1 hb
        exact hrun rfl t htt
      generalize exampleScripts (titles.map (· ++ ".py")) = l at hs
      induction l with
      | nil => rfl
      | cons b l ih =>
        simp only [runExamples, hs b (by simp)]
        simp [ih (fun x hx => hs x (by simp [hx]))]
  simp only [runAll, hall]
  constructor
  · intro t htt
    have hb := (mem_exampleScripts titles (t ++ ".py")).2 ⟨t, htt, rfl⟩
    have := foldl_putFile_own (fun b => outputName m (folder ++ "/" ++ b)) (fun b => (run b).writes)
      _ out (t ++ ".py") hb (by
        intro x hx hxe
        obtain ⟨u, hu, rfl⟩ := (mem_exampleScripts titles x).1 hx
        rw [(ht u hu).output, (ht t htt).output] at hxe
        rw [title_inj hxe])
    simpa only [(ht t htt).output] using this
  · intro n hn
    refine foldl_putFile_other (fun b => outputName m (folder ++ "/" ++ b)) (fun b => (run b).writes) n
      _ out ?_
    intro b hb
    obtain ⟨t, htt, rfl⟩ := (mem_exampleScripts titles b).1 hb
    rw [(ht t htt).output]
    exact fun e => hn t htt e.symm

/-- Titles with a dot and with letters of `.py`. -/
example : Title "points-2d" ∧ Title "lidar.p" ∧ ¬ Title "a.pyb" :=
  ⟨⟨by decide, ⟨_, _, rfl, by decide⟩, by decide⟩, ⟨by decide, ⟨_, _, rfl, by decide⟩, by decide⟩,
    fun h => h.once (by decide)⟩

/-- The example b raises, all others write the image 7. -/
def bRaises (b : String) : ExampleRun Nat :=
  if b = "b.py" then ⟨none, false⟩ else ⟨some ⟨[], .error .valueError, .ok 7⟩, true⟩

/-- An earlier run has left an image of b. -/
def bBefore (n : String) : Option (OutFile Nat) :=
  if n = "b.png" then some ⟨[], .error .valueError, .ok 5⟩ else none

/-- Two examples and another file: the image of b is the earlier one. -/
example : let r := runAll .image "examples" bRaises false ["b.py", "c.md", "a.py"] bBefore
    r.1 = .success ∧ ((r.2 "a.png").map (·.image.toOption), (r.2 "b.png").map (·.image.toOption),
      (r.2 "c.png").map (·.image.toOption)) = (some (some 7), some (some 5), none) := by decide +kernel

/-! ### The check after the run -/

theorem check_images (score : Img → Img → Except Err ℚ) (out : String → Option (OutFile Img))
    (old : String → OutFile Img) (expected : List String) (ht : ∀ t ∈ expected, Title t) :
    checkMain sort score out (expectedImages old expected) = .success ↔
      ∀ t ∈ expected, ∃ f, out (t ++ ".png") = some f ∧ AlikeFile score (old t) f := by
  have hpng : ∀ t : String, ".png".toList <:+ (t ++ ".png").toList := fun t => ⟨t.toList, by simp⟩
  have hext : ∀ t ∈ expected, splitExt (t ++ ".png") = ".png" := by
    intro t h
    obtain ⟨c, cs, hc, hd⟩ := (ht t h).visible
    exact (visible_ext (c := c) (cs := cs ++ ".png".toList) (by simp [hc]) hd (hpng t)
      (e := ['p', 'n', 'g']) (by decide)).trans (by decide)
  simp only [checkMain, checkFiles_success, List.mem_filter, isChecked_iff, expectedImages,
    List.mem_map, and_imp, forall_exists_index]
  constructor
  · intro h t hte
    obtain ⟨y, hy, hv⟩ := h _ t hte rfl (Or.inl (hpng t))
    refine ⟨y, hy, ?_⟩
    simp only [hext t hte, verifyContent, true_or, if_true] at hv
    cases hx : (old t).image with
    | error e => simp [hx, bind, Except.bind] at hv
    | ok i =>
      cases hj : y.image with
      | error e => simp [hx, hj, bind, Except.bind] at hv
      | ok j =>
        cases hsc : score i j with
        | error e => simp [hx, hj, hsc, bind, Except.bind] at hv
        | ok s =>
          refine ⟨i, j, s, hx, hj, hsc, ?_⟩
          simpa [hx, hj, hsc, bind, Except.bind, pure, Except.pure] using hv
  · rintro h _ t hte rfl -
    obtain ⟨f, hf, i, j, s, hx, hj, hsc, hge⟩ := h t hte
    refine ⟨f, hf, ?_⟩
    simp [hext t hte, verifyContent, hx, hj, hsc, bind, Except.bind, pure, Except.pure, hge]

/-- What the check says after a run of all examples, exactly: for each title with an expected image,
the image in the output folder is compared, be it of this run or of an earlier one. -/
theorem regression_check_iff (score : Img → Img → Except Err ℚ) (stop : Bool)
    (run : String → ExampleRun Img) (old : String → OutFile Img) (titles expected : List String)
    (ht : ∀ t ∈ titles, Title t) (hsub : ∀ t ∈ expected, t ∈ titles) (folder : String)
    (out : String → Option (OutFile Img))
    (hrun : stop = true → ∀ t ∈ titles, (run (t ++ ".py")).succeeds = true) :
    checkMain sort score (runAll .image folder run stop (titles.map (· ++ ".py")) out).2
        (expectedImages old expected) = .success ↔
      ∀ t ∈ expected, ∃ f, (run (t ++ ".py")).writes.or (out (t ++ ".png")) = some f ∧
        AlikeFile score (old t) f := by
  rw [check_images score _ old expected (fun t h => ht t (hsub t h))]
  have hw := (run_all_writes .image folder run stop titles ht out hrun).1
  refine forall_congr' fun t => forall_congr' fun h => ?_
  have := hw t (hsub t h)
  rw [show OutMode.image.ext = ".png" from rfl] at this
  rw [this]

/-- With `--stop-on-error` the test finds what it should, whatever earlier runs have left: an example
that ends without error has written its image. -/
theorem regression_stop_partial (score : Img → Img → Except Err ℚ) (run : String → ExampleRun Img)
    (old : String → OutFile Img) (titles expected : List String) (ht : ∀ t ∈ titles, Title t)
    (hsub : ∀ t ∈ expected, t ∈ titles) (folder : String) (out : String → Option (OutFile Img))
    (hw : ∀ t ∈ titles, (run (t ++ ".py")).succeeds = true → (run (t ++ ".py")).writes.isSome) :
    Regresses sort score true run old titles expected folder out := by
  have hexit : (runAll .image folder run true (titles.map (· ++ ".py")) out).1 = .success ↔
      ∀ t ∈ titles, (run (t ++ ".py")).succeeds = true := by
    rw [runAll, (run_examples_stop _ _).1]
    constructor
    · exact fun h t htt => h _ ((mem_exampleScripts titles _).2 ⟨t, htt, rfl⟩)
    · intro h b hb
      obtain ⟨t, htt, rfl⟩ := (mem_exampleScripts titles b).1 hb
      exact h t htt
  rw [Regresses, hexit]
  refine and_congr_right fun hs => ?_
  rw [regression_check_iff score true run old titles expected ht hsub folder out (fun _ => hs)]
  refine forall_congr' fun t => forall_congr' fun h => ?_
  have := hw t (hsub t h) (hs t (hsub t h))
  cases hx : (run (t ++ ".py")).writes with
  | none => simp [hx] at this
  | some f => simp

/-- Two examples of which one has an expected image; they pass, and with another image they do not. -/
example : let E := fun (k : Nat) (b : String) => if b = "b.py" then
      (⟨some ⟨[], .error .valueError, .ok k⟩, true⟩ : ExampleRun Nat) else
      ⟨some ⟨[], .error .valueError, .ok 7⟩, true⟩
    let c := fun k => checkMain insertionSort (fun i j => .ok (if i = j then 1 else 0))
      (runAll .image "examples" (E k) true (["a", "b"].map (· ++ ".py")) (fun _ => none)).2
      (expectedImages (fun _ => ⟨[], .error .valueError, .ok 3⟩) ["b"])
    c 3 = .success ∧ c 4 = .failure := by decide +kernel

/-- Without the flag, as `make test_examples_image` runs it, examples that fail are not noticed: whatever
the examples, if none of them writes anything any more, the first script ends well and the second says
what it said before. -/
theorem regression_stale (score : Img → Img → Except Err ℚ) (run : String → ExampleRun Img)
    (listing : List String) (folder : String) (m : OutMode) (files : List (String × OutFile Img))
    (out : String → Option (OutFile Img)) (h : ∀ b, (run b).writes = none) :
    (runAll m folder run false listing out).1 = .success ∧
    checkMain sort score (runAll m folder run false listing out).2 files =
      checkMain sort score out files := by
  refine ⟨run_reports_fails.2 _ _, ?_⟩
  have : (runAll m folder run false listing out).2 = out := by
    simp only [runAll, h, putFile]
    generalize (runExamples _ _ _).2 = l
    induction l with
    | nil => rfl
    | cons b l ih => exact ih
  rw [this]

/-- So the test does not find what it should: an example that raises passes when an earlier run has left
its image. -/
theorem regression_fails : ¬ ∀ (run : String → ExampleRun Nat) (old : String → OutFile Nat)
    (out : String → Option (OutFile Nat)),
    Regresses sort (fun i j => .ok (if i = j then 1 else 0)) false run old ["points-2d"]
      ["points-2d"] "examples" out := by
  intro h
  have ht : ∀ t ∈ ["points-2d"], Title t := by
    intro t h
    obtain rfl : t = "points-2d" := by simpa using h
    exact ⟨by decide, ⟨'p', _, rfl, by decide⟩, by decide⟩
  have h1 := (h (fun _ => ⟨none, false⟩) (fun _ => ⟨[], .error .valueError, .ok 7⟩)
    (fun _ => some ⟨[], .error .valueError, .ok 7⟩)).1 ⟨run_reports_fails.2 _ _, by
      rw [regression_check_iff _ _ _ _ _ _ ht (fun t h => h) _ _ (by simp)]
      intro t _
      exact ⟨_, rfl, 7, 7, 1, rfl, rfl, rfl, by decide +kernel⟩⟩
  simpa using h1.1 "points-2d" (by simp)

/-- Two examples whose names differ by a `.py` write the same file: what the first one writes is lost,
and no change of it is found. -/
theorem regression_names_fails (score : Img → Img → Except Err ℚ) (run run' : String → ExampleRun Img)
    (files : List (String × OutFile Img)) (out : String → Option (OutFile Img)) (f : OutFile Img)
    (hf : (run "ab.py").writes = some f) (hsame : run' "ab.py" = run "ab.py") :
    checkMain sort score (runAll .image "examples" run' false ["a.pyb.py", "ab.py"] out).2 files =
      checkMain sort score (runAll .image "examples" run false ["a.pyb.py", "ab.py"] out).2 files := by
  have hs : exampleScripts ["a.pyb.py", "ab.py"] = ["a.pyb.py", "ab.py"] := by decide +kernel
  have h1 : outputName .image ("examples" ++ "/" ++ "a.pyb.py") = "ab.png" := by decide +kernel
  have h2 : outputName .image ("examples" ++ "/" ++ "ab.py") = "ab.png" := by decide +kernel
  have : ∀ r : String → ExampleRun Img, (r "ab.py").writes = some f →
      (runAll .image "examples" r false ["a.pyb.py", "ab.py"] out).2 =
        fun n => if n = "ab.png" then some f else out n := by
    intro r hr
    simp only [runAll, run_examples_all, hs, List.foldl_cons, List.foldl_nil, h1, h2, hr]
    funext n
    cases (r "a.pyb.py").writes <;> by_cases hn : n = "ab.png" <;> simp [putFile, hn]
  rw [this run hf, this run' (by rw [hsame]; exact hf)]

/-- The files of commands that examples write do not pass once they are expected: if a file expected
holds commands, and the example was run after it was written, the check does not succeed. -/
theorem regression_commands_fails (hs : SortSpec sort) (score : Img → Img → Except Err ℚ)
    (run : String → ExampleRun Img) (titles : List String) (ht : ∀ t ∈ titles, Title t)
    (folder : String) (out : String → Option (OutFile Img)) (files : List (String × OutFile Img))
    (t : String) (htt : t ∈ titles) (old new : OutFile Img)
    (cs ds : List (String × Nat × ℚ × List (String × Js)))
    (hold : (t ++ ".commands.json", old) ∈ files) (hcs : old.json = .ok (commandFile cs)) (hne : cs ≠ [])
    (hnew : (run (t ++ ".py")).writes = some new) (hds : new.json = .ok (commandFile ds))
    (hlater : ∀ c ∈ cs, ∀ d ∈ ds, c.2.2.1 < d.2.2.1) :
    checkMain sort score (runAll .commands folder run false (titles.map (· ++ ".py")) out).2 files ≠
      .success := by
  intro h
  rw [checkMain, checkFiles_success] at h
  have hsuf : ".json".toList <:+ (t ++ ".commands.json").toList :=
    ⟨t.toList ++ ".commands".toList, by simp⟩
  obtain ⟨y, hy, hv⟩ := h _ (List.mem_filter.2 ⟨hold, (isChecked_iff _).2 (Or.inr hsuf)⟩)
  have hw := (run_all_writes .commands folder run false titles ht out (by simp)).1 t htt
  rw [show OutMode.commands.ext = ".commands.json" from rfl, hnew] at hw
  rw [hw] at hy
  obtain rfl : new = y := by simpa using hy
  obtain ⟨c, cs', hc, hd⟩ := (ht t htt).visible
  have he : splitExt (t ++ ".commands.json") = ".json" :=
    (visible_ext (c := c) (cs := cs' ++ ".commands.json".toList) (by simp [hc]) hd hsuf
      (e := ['j', 's', 'o', 'n']) (by decide)).trans (by decide)
  rw [he] at hv
  refine commands_rerun_rejected hs hne hlater ?_
  simpa [verifyContent, hcs, hds, bind, Except.bind] using hv

end Verif
