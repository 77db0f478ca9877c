import Verif.Lemmas.Checker
/-
C65: the script that compares the examples' output files with the expected ones, and the script
that runs the examples.
-/

namespace Verif

variable {sort : SortFn}

/-! ### Comparison of JSON files -/

/-- When neither file makes the sort raise, the comparison accepts exactly the files that have
the same elements and items, in any order, at every depth.

Partial: the order of lists is not compared, and some files raise (see the `_fails` theorems). -/
theorem checker_accepts_partial (hs : SortSpec sort) {a b : Js} {x y : Reordered}
    (ha : jsReorder sort a = .ok x) (hb : jsReorder sort b = .ok y) :
    ∃ c, jsonDeepComp sort a b = .ok c ∧ (c = true ↔ SameJs a b) := by
  refine ⟨x.beq y, by simp [jsonDeepComp, ha, hb], ?_⟩
  rw [Reordered.beq_iff]
  constructor
  · intro h
    subst h
    exact reorder_sameJs hs a b x ha hb
  · exact fun h => sameJs_reorder hs h ha hb

example : ∃ c, jsonDeepComp insertionSort
    (.obj [("a", .num 1), ("b", .arr [.num 2, .num 3])])
    (.obj [("b", .arr [.num 3, .num 2]), ("a", .bool true)]) = .ok c ∧ (c = true ↔ SameJs
    (.obj [("a", .num 1), ("b", .arr [.num 2, .num 3])])
    (.obj [("b", .arr [.num 3, .num 2]), ("a", .bool true)])) :=
  checker_accepts_partial insertionSort_spec
    (x := .list [.item "a" (.num 1), .item "b" (.list [.num 2, .num 3])])
    (y := .list [.item "a" (.num 1), .item "b" (.list [.num 2, .num 3])])
    (by decide +kernel) (by decide +kernel)

/-- A file whose objects have their keys in another order is treated like the file itself: it is
accepted, unless comparing the file with itself raises. -/
theorem checker_key_order (hs : SortSpec sort) {a b : Js} (ha : a.WF) (hb : b.WF)
    (h : DeepEq a b) : jsonDeepComp sort a b = .ok true ∨
      (Raises (jsonDeepComp sort a a) ∧ Raises (jsonDeepComp sort a b)) := by
  cases hx : jsReorder sort a with
  | error e => exact Or.inr ⟨by simp [Raises, jsonDeepComp, hx], by simp [Raises, jsonDeepComp, hx]⟩
  | ok x =>
    have := (deepEq_reorder hs ha hb h x).1 hx
    exact Or.inl (by simp [jsonDeepComp, hx, this, Reordered.beq_self])

example : jsonDeepComp insertionSort
    (.obj [("a", .num 1), ("b", .arr [.num 2, .num 3])])
    (.obj [("b", .arr [.num 2, .num 3]), ("a", .num 1)]) = .ok true := by
  rcases checker_key_order insertionSort_spec
    (a := .obj [("a", .num 1), ("b", .arr [.num 2, .num 3])])
    (b := .obj [("b", .arr [.num 2, .num 3]), ("a", .num 1)])
    (by simp [Js.WF, Js.WFItems, Js.WFAll]) (by simp [Js.WF, Js.WFItems, Js.WFAll])
    (.obj (.cons (ys := [_]) (zs := []) (.num 1)
      (.cons (ys := []) (zs := []) (.arr (.cons (.num 2) (.cons (.num 3) .nil))) .nil)))
    with h | h
  · exact h
  · exact absurd (show _ = Except.ok true by decide +kernel) (h.2 true)

/-- Any rearrangement of a list of numbers is accepted: a position `[x, y]` matches `[y, x]`. -/
theorem checker_ignores_order (hs : SortSpec sort) {l m : List ℚ} (h : l.Perm m) :
    jsonDeepComp sort (.arr (l.map .num)) (.arr (m.map .num)) = .ok true := by
  obtain ⟨x, hx⟩ := hs.total _ (nums_comparable l)
  obtain ⟨y, hy⟩ := hs.total _ (nums_comparable m)
  have e := (sort_unique hs hx hy).2 (h.map _)
  subst e
  simp [jsonDeepComp, jsReorder, jsReorderAll_nums, hx, hy, Except.map, Reordered.beq_self]

example : jsonDeepComp insertionSort (.arr ([1, 2].map .num)) (.arr ([2, 1].map .num)) = .ok true :=
  checker_ignores_order insertionSort_spec (List.Perm.swap 2 1 [])

/-- What its documentation says: the comparison returns True exactly for deeply equal values. -/
def CheckerExact (sort : SortFn) : Prop :=
  ∀ a b : Js, a.WF → b.WF → ∃ c, jsonDeepComp sort a b = .ok c ∧ (c = true ↔ DeepEq a b)

/-- The comparison accepts values that are not equal, whatever the sort. -/
theorem checker_exact_fails (hs : SortSpec sort) : ¬ CheckerExact sort := by
  intro h
  obtain ⟨c, hc, hiff⟩ := h (.arr ([1, 2].map .num)) (.arr ([2, 1].map .num))
    (by simp [Js.WF, Js.WFAll]) (by simp [Js.WF, Js.WFAll])
  rw [checker_ignores_order hs (List.Perm.swap 2 1 [])] at hc
  cases hc
  have := hiff.1 rfl
  cases this with
  | arr h => cases h with
    | cons h _ =>
      generalize he : (2 : ℚ) = p at h
      cases h
      exact absurd he (by decide)

/-- What one would expect at least: a file matches itself. -/
def CheckerReflexive (sort : SortFn) : Prop := ∀ a : Js, a.WF → jsonDeepComp sort a a = .ok true

/-- A list with two `null`, or of a number and a text, does not match itself: the comparison
raises TypeError, whatever the sort. -/
theorem checker_reflexive_fails (hs : SortSpec sort) : ¬ CheckerReflexive sort ∧
    Raises (jsonDeepComp sort (.arr [.null, .null]) (.arr [.null, .null])) ∧
    ∀ (q : ℚ) (s : String),
      Raises (jsonDeepComp sort (.arr [.num q, .str s]) (.arr [.num q, .str s])) := by
  have h0 : Raises (jsonDeepComp sort (.arr [.null, .null]) (.arr [.null, .null])) :=
    lists_raise hs (rs := [.null, .null]) (by simp [jsReorderAll, jsReorder, Except.map]) (by simp)
      (by simp [Raises, Reordered.lt]) _
  refine ⟨fun h => h0 true (h _ (by simp [Js.WF, Js.WFAll])), h0, fun q s => ?_⟩
  exact lists_raise hs (rs := [.num q, .str s]) (by simp [jsReorderAll, jsReorder, Except.map])
    (by simp) (by simp [Raises, Reordered.lt]) _

/-! ### Files of commands -/

/-- Two files of commands match only if they have the same numbers, methods and times: for every
command of one there is a command of the other with the same method, number and time. The times
are those of the runs, so a file written by another run does not match. -/
theorem commands_match_only_same_times_partial (hs : SortSpec sort)
    {cs ds : List (String × Nat × ℚ × List (String × Js))}
    (h : jsonDeepComp sort (commandFile cs) (commandFile ds) = .ok true) :
    ∀ c ∈ cs, ∃ d ∈ ds, d.1 = c.1 ∧ d.2.1 = c.2.1 ∧ d.2.2.1 = c.2.2.1 ∧
      SameItems c.2.2.2 d.2.2.2 := by
  have hsame : SameJs (commandFile cs) (commandFile ds) := by
    cases hx : jsReorder sort (commandFile cs) with
    | error e => simp [jsonDeepComp, hx] at h
    | ok x =>
      cases hy : jsReorder sort (commandFile ds) with
      | error e => simp [jsonDeepComp, hx, hy] at h
      | ok y =>
        obtain ⟨c, hc, hiff⟩ := checker_accepts_partial hs hx hy
        rw [h] at hc
        cases hc
        exact hiff.1 rfl
  intro c hc
  obtain ⟨y, hy, hsy⟩ := hsame.inv_obj.partner (k := "commands") (List.mem_cons_of_mem _
    (List.mem_cons_self))
  simp only [List.mem_cons, Prod.mk.injEq, List.not_mem_nil, or_false] at hy
  rcases hy with hy | hy
  · exact absurd hy.1 (by decide)
  obtain ⟨-, rfl⟩ := hy
  obtain ⟨z, hz, hsz⟩ := hsy.inv_arr.partner (List.mem_map_of_mem hc)
  obtain ⟨d, hd, rfl⟩ := List.mem_map.1 hz
  have hi := hsz.inv_obj
  refine ⟨d, hd, ?_, ?_, ?_, ?_⟩
  · obtain ⟨y, hy, hs1⟩ := hi.partner (k := "method") (x := .str c.1) (by simp)
    simp at hy
    subst hy
    generalize d.1 = p at hs1
    cases hs1 with
    | number h _ => cases h
    | str => rfl
  · obtain ⟨y, hy, hs1⟩ := hi.partner (k := "id") (x := .num c.2.1) (by simp)
    simp at hy
    subst hy
    cases hs1 with
    | number h1 h2 =>
      simp only [Js.numeric, Option.some.injEq] at h1 h2
      exact_mod_cast h2.trans h1.symm
  · obtain ⟨y, hy, hs1⟩ := hi.partner (k := "timestamp") (x := .num c.2.2.1) (by simp)
    simp at hy
    subst hy
    cases hs1 with
    | number h1 h2 =>
      simp only [Js.numeric, Option.some.injEq] at h1 h2
      exact h2.trans h1.symm
  · obtain ⟨y, hy, hs1⟩ := hi.partner (k := "parameters") (x := .obj c.2.2.2) (by simp)
    simp at hy
    subst hy
    exact hs1.inv_obj

example : jsonDeepComp insertionSort
    (commandFile [("Canvas", 0, 5 / 2, [("width", .num 10)]), ("Canvas/render", 1, 3, [])])
    (commandFile [("Canvas/render", 1, 3, []), ("Canvas", 0, 5 / 2, [("width", .num 10)])])
    = .ok true := by decide +kernel

/-- The same commands recorded at another time are rejected, or the comparison raises. -/
theorem commands_rerun_rejected (hs : SortSpec sort)
    {cs ds : List (String × Nat × ℚ × List (String × Js))} (hne : cs ≠ [])
    (h : ∀ c ∈ cs, ∀ d ∈ ds, c.2.2.1 < d.2.2.1) :
    jsonDeepComp sort (commandFile cs) (commandFile ds) ≠ .ok true := by
  intro hok
  cases cs with
  | nil => exact hne rfl
  | cons c cs =>
    obtain ⟨d, hd, _, _, ht, _⟩ := commands_match_only_same_times_partial hs hok c (by simp)
    have := h c (by simp) d hd
    rw [ht] at this
    exact lt_irrefl _ this

example : jsonDeepComp insertionSort
    (commandFile [("Canvas", 0, 5 / 2, [("width", .num 10)])])
    (commandFile [("Canvas", 0, 7 / 2, [("width", .num 10)])]) ≠ .ok true :=
  commands_rerun_rejected insertionSort_spec (by simp) (by
    intro c hc d hd
    simp at hc hd
    subst hc hd
    decide +kernel)

/-! ### The check of all files -/

/-- When the names of the expected files do not start with a dot and no JSON file makes the sort
raise, the check succeeds exactly if every expected image or JSON file is in the output folder
and matches. A missing file, a file that cannot be read and a different content all end it.

Partial: for the names and files the hypotheses leave out, and since JSON files are compared up
to order (`checker_exact_fails`). -/
theorem check_success_partial {Img : Type} (hs : SortSpec sort)
    (score : Img → Img → Except Err ℚ) (out : String → Option (OutFile Img))
    (expected : List (String × OutFile Img))
    (hnames : ∀ f ∈ expected, ∃ c cs, f.1.toList = c :: cs ∧ c ≠ '.')
    (hsort : ∀ f ∈ expected, ∀ y, out f.1 = some y → ∀ a, (f.2.json = .ok a ∨ y.json = .ok a) →
      ∃ r, jsReorder sort a = .ok r) :
    checkMain sort score out expected = .success ↔
      ∀ f ∈ expected, (".png".toList <:+ f.1.toList ∨ ".json".toList <:+ f.1.toList) →
        ∃ y, out f.1 = some y ∧ FileMatches score f.1 f.2 y := by
  simp only [checkMain, checkFiles_success, List.mem_filter, isChecked_iff, and_imp]
  refine forall_congr' fun f => forall_congr' fun hf => forall_congr' fun hck =>
    exists_congr fun y => and_congr_right fun hy => ?_
  obtain ⟨c, cs, hn, hc⟩ := hnames f hf
  rcases hck with hpng | hjson
  · have he : splitExt f.1 = ".png" :=
      (visible_ext hn hc hpng (e := ['p', 'n', 'g']) (by decide)).trans (by decide)
    have hnj : ¬ ".json".toList <:+ f.1.toList := fun h => not_both ⟨hpng, h⟩
    simp only [FileMatches, hpng, hnj, true_implies, false_implies, and_true]
    simp only [verifyContent, he, true_or, if_true]
    cases f.2.image with
    | error e => simp [bind, Except.bind]
    | ok i =>
      cases y.image with
      | error e => simp [bind, Except.bind]
      | ok j =>
        simp only [bind, Except.bind]
        cases h : score i j with
        | error e => simp [h]
        | ok s => simp [pure, Except.pure, h]
  · have he : splitExt f.1 = ".json" :=
      (visible_ext hn hc hjson (e := ['j', 's', 'o', 'n']) (by decide)).trans (by decide)
    have hnp : ¬ ".png".toList <:+ f.1.toList := fun h => not_both ⟨h, hjson⟩
    simp only [FileMatches, hjson, hnp, true_implies, false_implies, true_and]
    have hv : verifyContent sort score ".json" f.2 y =
        (f.2.json >>= fun x => y.json >>= fun z => jsonDeepComp sort x z) := by
      simp [verifyContent]
    rw [he, hv]
    cases ha : f.2.json with
    | error e => simp [bind, Except.bind]
    | ok a =>
      cases hb : y.json with
      | error e => simp [bind, Except.bind]
      | ok b =>
        obtain ⟨ra, hra⟩ := hsort f hf y hy a (Or.inl ha)
        obtain ⟨rb, hrb⟩ := hsort f hf y hy b (Or.inr hb)
        obtain ⟨d, hd, hiff⟩ := checker_accepts_partial hs hra hrb
        simp [bind, Except.bind, hd, hiff]

example : checkMain insertionSort (fun (i j : Nat) => .ok (if i = j then 1 else 0))
    (fun n => if n = "a.json" then
      some ⟨[], .ok (.arr [.num 2, .num 1]), .error .valueError⟩ else
      if n = "b.png" then some ⟨[], .error .valueError, .ok 7⟩ else none)
    [("a.json", ⟨[], .ok (.arr [.num 1, .num 2]), .error .valueError⟩),
     ("b.png", ⟨[], .error .valueError, .ok 7⟩), ("notes.txt", ⟨[1], .error .valueError, .ok 7⟩)]
    = .success := by decide +kernel

/-- An output file that no expected file asks for is never looked at: the check ends the same
whatever it holds. -/
theorem check_ignores_other_output {Img : Type} (score : Img → Img → Except Err ℚ)
    (out out' : String → Option (OutFile Img)) (expected : List (String × OutFile Img))
    (h : ∀ f ∈ expected, isChecked f.1 = true → out f.1 = out' f.1) :
    checkMain sort score out expected = checkMain sort score out' expected := by
  unfold checkMain
  have h' : ∀ f ∈ expected.filter (fun f => isChecked f.1), out f.1 = out' f.1 := by
    intro f hf
    exact h f (List.mem_filter.1 hf).1 (List.mem_filter.1 hf).2
  generalize expected.filter (fun f => isChecked f.1) = l at h'
  induction l with
  | nil => rfl
  | cons f l ih =>
    obtain ⟨name, x⟩ := f
    simp only [checkFiles]
    rw [h' (name, x) (by simp), ih (fun f hf => h' f (List.mem_cons_of_mem _ hf))]

/-- What the script promises: a success means that there is an expected file for every output
file and that it matches. -/
def CheckCoversOutput (sort : SortFn) : Prop :=
  ∀ (score : Nat → Nat → Except Err ℚ) (out : String → Option (OutFile Nat))
    (expected : List (String × OutFile Nat)), checkMain sort score out expected = .success →
    ∀ n, isChecked n = true → (out n).isSome = true → n ∈ expected.map Prod.fst

/-- With no expected file the check succeeds. -/
theorem check_covers_output_fails : ¬ CheckCoversOutput sort := by
  intro h
  have := h (fun _ _ => .ok 0) (fun _ => some ⟨[], .ok .null, .ok 0⟩) [] rfl "a.png" (by decide) rfl
  simp at this

/-! ### Running the examples -/

/-- With `--stop-on-error` the script succeeds exactly if every example does; it runs the
examples in order up to and including the first that fails. -/
theorem run_examples_stop (run : String → Bool) (l : List String) :
    ((runExamples run true l).1 = .success ↔ ∀ s ∈ l, run s = true) ∧
    ((runExamples run true l).1 = .failure ↔ ∃ s ∈ l, run s = false) ∧
    (runExamples run true l).2 <+: l ∧
    ∀ pre s post, l = pre ++ s :: post → (∀ p ∈ pre, run p = true) → run s = false →
      (runExamples run true l).2 = pre ++ [s] := by
  induction l with
  | nil => simp [runExamples]
  | cons a l ih =>
    obtain ⟨h1, h2, h3, h4⟩ := ih
    cases ha : run a with
    | false =>
      simp only [runExamples, ha, Bool.not_false, Bool.and_self, if_true]
      refine ⟨by simp [ha], by simp [ha], by simp, fun pre s post he hp hs => ?_⟩
      cases pre with
      | nil => cases he; rfl
      | cons p pre =>
        cases he
        have := hp a (by simp)
        rw [ha] at this
        cases this
    | true =>
      simp only [runExamples, ha, Bool.not_true, Bool.false_and, Bool.false_eq_true, if_false]
      refine ⟨by simp [ha, h1], by simp [ha, h2], by simpa using h3, fun pre s post he hp hs => ?_⟩
      cases pre with
      | nil => cases he; rw [ha] at hs; cases hs
      | cons p pre =>
        cases he
        exact congrArg (a :: ·) (h4 pre s post rfl (fun q hq => hp q (List.mem_cons_of_mem _ hq)) hs)

example : runExamples (· ≠ "b.py") true ["a.py", "b.py", "c.py"] = (.failure, ["a.py", "b.py"]) := by
  decide

/-- Without the flag all examples are run. -/
theorem run_examples_all (run : String → Bool) (l : List String) :
    (runExamples run false l).2 = l := by
  induction l with
  | nil => rfl
  | cons a l ih => simp [runExamples, ih]

/-- What a script that "checks that all examples run without exceptions" promises: its exit code
tells whether they did. -/
def RunReports (stop : Bool) : Prop :=
  ∀ (run : String → Bool) (l : List String),
    (runExamples run stop l).1 = .success ↔ ∀ s ∈ l, run s = true

/-- Without the flag the script succeeds although every example fails. -/
theorem run_reports_fails : ¬ RunReports false ∧
    ∀ (run : String → Bool) (l : List String), (runExamples run false l).1 = .success := by
  have h : ∀ (run : String → Bool) (l : List String), (runExamples run false l).1 = .success := by
    intro run l
    induction l with
    | nil => rfl
    | cons a l ih => simp [runExamples, ih]
  refine ⟨fun hr => ?_, h⟩
  have := (hr (fun _ => false) ["a.py"]).1 (h _ _) "a.py" (by simp)
  cases this

/-- The arguments after the first `--`, and only they, go to the examples. -/
theorem split_argv (args : List String) :
    ("--" ∉ args ∧ splitArgv args = (args, [])) ∨
    ("--" ∉ (splitArgv args).1 ∧ args = (splitArgv args).1 ++ "--" :: (splitArgv args).2) := by
  induction args with
  | nil => exact Or.inl ⟨by simp, rfl⟩
  | cons a l ih =>
    by_cases ha : a = "--"
    · subst ha
      refine Or.inr ?_
      have : splitArgv ("--" :: l) = ([], l) := by simp [splitArgv]
      rw [this]
      simp
    · have hne : ("--" == a) = false := by simpa using fun e => ha e.symm
      have hne' : (a == "--") = false := by simpa using ha
      rcases ih with ⟨h, _⟩ | ⟨h1, h2⟩
      · have : "--" ∉ a :: l := by simp [h, Ne.symm ha]
        exact Or.inl ⟨this, by simp [splitArgv, Ne.symm ha, h]⟩
      · have hm : "--" ∈ l := by rw [h2]; simp
        have hs : splitArgv (a :: l) = (a :: (splitArgv l).1, (splitArgv l).2) := by
          simp [splitArgv, hm, List.idxOf_cons, hne']
        refine Or.inr ?_
        rw [hs]
        exact ⟨by simp [h1, Ne.symm ha], by simpa using h2⟩

example : splitArgv ["--stop-on-error", "--", "commands", "--", "-cyc"] =
    (["--stop-on-error"], ["commands", "--", "-cyc"]) := by decide

/-- Every example gets the whole environment and the variable that turns interaction off. -/
theorem launch_env_partial (environ : List (String × String))
    (h : "GSP_SC_INTERACTIVE" ∉ environ.map Prod.fst) :
    ∃ env, launchEnv environ = .ok env ∧ ("GSP_SC_INTERACTIVE", "False") ∈ env ∧
      ∀ p ∈ environ, p ∈ env := by
  refine ⟨environ ++ [("GSP_SC_INTERACTIVE", "False")], ?_, by simp, fun p hp => by simp [hp]⟩
  unfold launchEnv
  rw [if_neg (by simpa using h)]

example : launchEnv [("HOME", "/")] = .ok [("HOME", "/"), ("GSP_SC_INTERACTIVE", "False")] := rfl

/-- Examples can be launched in every environment. -/
def LaunchWorks : Prop := ∀ environ, ∃ env, launchEnv environ = .ok env

/-- With the variable set already, no example can be launched: TypeError. -/
theorem launch_env_fails : ¬ LaunchWorks ∧ ∀ environ,
    "GSP_SC_INTERACTIVE" ∈ environ.map Prod.fst → launchEnv environ = .error .typeError := by
  have h : ∀ environ, "GSP_SC_INTERACTIVE" ∈ environ.map Prod.fst →
      launchEnv environ = .error .typeError := by
    intro environ h
    unfold launchEnv
    rw [if_pos (by simpa using h)]
  refine ⟨fun hw => ?_, h⟩
  obtain ⟨env, he⟩ := hw [("GSP_SC_INTERACTIVE", "True")]
  rw [h _ (by simp)] at he
  cases he

end Verif
