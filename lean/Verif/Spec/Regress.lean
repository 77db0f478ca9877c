import Verif.Model.Regress
import Verif.Spec.Checker
/-
What the regression test of the examples should find.
-/

namespace Verif

/-- A title of an example, whose script is named after it: the title, and `.py`. The title itself holds
no `.py`, does not begin with a dot and holds no `/`. -/
structure Title (title : String) : Prop where
  once : ¬ ".py".toList <:+: title.toList
  visible : ∃ c cs, title.toList = c :: cs ∧ c ≠ '.'
  plain : '/' ∉ title.toList

/-- The two files hold images that are alike. -/
def AlikeFile {Img : Type} (score : Img → Img → Except Err ℚ) (x y : OutFile Img) : Prop :=
  ∃ i j s, x.image = .ok i ∧ y.image = .ok j ∧ score i j = .ok s ∧ 99 / 100 ≤ s

/-- The folder of expected files: for each of these titles an image. -/
def expectedImages {Img : Type} (old : String → OutFile Img) (titles : List String) :
    List (String × OutFile Img) :=
  titles.map (fun t => (t ++ ".png", old t))

/-- What a regression test promises of examples with these titles, given the images expected of some of
them, whatever is in the output folder before: both scripts end well exactly when each example runs without
error and each image expected is like the one its example has written now. -/
def Regresses {Img : Type} (sort : SortFn) (score : Img → Img → Except Err ℚ) (stop : Bool)
    (run : String → ExampleRun Img) (old : String → OutFile Img) (titles expected : List String)
    (folder : String) (out : String → Option (OutFile Img)) : Prop :=
  ((runAll .image folder run stop (titles.map (· ++ ".py")) out).1 = .success ∧
    checkMain sort score (runAll .image folder run stop (titles.map (· ++ ".py")) out).2
      (expectedImages old expected) = .success) ↔
  (∀ t ∈ titles, (run (t ++ ".py")).succeeds = true) ∧
    ∀ t ∈ expected, ∃ f, (run (t ++ ".py")).writes = some f ∧ AlikeFile score (old t) f

end Verif
