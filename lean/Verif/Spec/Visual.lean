import Verif.Model.Visual
/-
Vocabulary of the properties of visuals.
-/

namespace Verif

/-- The last matrix given for a role, or the one to begin with. -/
def lastGiven {M : Type} (start : M) (given : List (Option M)) : M :=
  ((given.filterMap id).getLast?).getD start

/-- The render calls of a history. -/
def callsOf {M : Type} (es : List (REvent M)) : List (RCall M) :=
  es.filterMap (fun e => match e with | .render c => some c | .resize _ => none)

/-- The product projection · view · model of the matrices last given in a history. -/
def lastProduct {M : Type} (mul : M → M → Option M) (one : M) (cs : List (RCall M)) : Option M :=
  (mul (lastGiven one (cs.map (·.proj))) (lastGiven one (cs.map (·.view)))).bind
    (fun pv => mul pv (lastGiven one (cs.map (·.model))))

/-- The colour meant for element `i` of `n`: its own item of an array of `n` items, the only
item of an array of one, or the one colour given. -/
def meantColour (n : Nat) (a : Attr) (i : Nat) : Option (List ℚ) :=
  match a with
  | .items xs => if xs.length = n then xs[i]? else xs[0]?
  | .flat xs => some xs
  | .other x => some [x]

/-- A colour attribute that says unambiguously what is meant: one colour per element, or one
colour for all. -/
def FitsColour (n : Nat) : Attr → Prop
  | .items xs => xs.length = n ∨ xs.length = 1
  | .flat xs => xs.length ≠ n
  | .other _ => True

/-- The width meant for element `i` of `n`. -/
def meantWidth (n : Nat) (a : Attr) (i : Nat) : Option ℚ :=
  match a with
  | .items xs => (if xs.length = n then xs[i]? else xs[0]?).bind (·[0]?)
  | .flat xs => if xs.length = n then xs[i]? else xs[0]?
  | .other x => some x

/-- A width attribute that says unambiguously what is meant. -/
def FitsWidth (n : Nat) : Attr → Prop
  | .items xs => xs.length = n ∨ xs.length = 1
  | .flat xs => xs.length = n ∨ xs.length = 1
  | .other _ => True

/-- The size meant for element `i` of `n`. -/
def meantSize (n : Nat) (a : Attr) (i : Nat) : Option Attr :=
  match a with
  | .items xs => if xs.length = n then xs[i]?.map .flat else some (.items xs)
  | .flat xs => if xs.length = n then xs[i]?.map .other else some (.flat xs)
  | .other x => some (.other x)

/-- The elements as they are meant, each with its own attributes, in the order they were
given. -/
def meant {G : Type} (shapes : List G) (fill line width size : Attr) : List (Elem G) :=
  let n := shapes.length
  (List.range n).map (fun i =>
    ⟨shapes[i]?, meantColour n fill i, meantColour n line i, meantWidth n width i,
      meantSize n size i⟩)

/-- The order in which elements are drawn puts the farther (those of greater depth) first. -/
def FartherFirst (depths : List ℚ) (idx : List Nat) : Prop :=
  ∀ (k l i j : Nat) a b, idx[k]? = some i → idx[l]? = some j →
    depths[i]? = some a → depths[j]? = some b → b < a → k < l

/-- The value last given to a name in a history of assignments. -/
def lastValue {V : Type} (name : String) (hist : List (String × V)) : Option V :=
  ((hist.filter (fun nv => nv.1 = name)).getLast?).map (·.2)

end Verif
