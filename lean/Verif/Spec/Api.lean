import Verif.Model.Api
import Verif.Spec.Transfer
/-
What a front end and the Matplotlib backend have in common.
-/

namespace Verif

/-- The functions of `gsp` that the Matplotlib backend carries out. -/
def portable : List (String × String) :=
  [("Canvas", "__init__"), ("Canvas", "render"), ("Viewport", "__init__"),
   ("Buffer", "__init__"), ("Buffer", "set_data"), ("List", "__init__"),
   ("Pixels", "__init__"), ("Pixels", "render"), ("Points", "__init__"), ("Points", "render"),
   ("Markers", "__init__"), ("Markers", "render"), ("Segments", "__init__"),
   ("Segments", "render"), ("Paths", "__init__"), ("Paths", "render"),
   ("Polygons", "__init__"), ("Polygons", "render")]

/-- The functions of `gsp` that the Matplotlib backend also carries out while it records. -/
def portableOn : List (String × String) := portable.filter (fun p => p.1 ≠ "List")

/-- The enumerations whose members a recording backend does not take back. -/
def lineEnums : List String := ["LineCap", "LineStyle", "LineJoin"]

/-- A member of one of them. -/
def isLineMember : Val → Bool
  | .inst c _ => c ∈ lineEnums
  | _ => false

/-- The values given in an action. -/
def Act.values : Act → List Val
  | .create _ args kwargs => args ++ kwargs.map Prod.snd
  | .call _ _ args kwargs => args ++ kwargs.map Prod.snd

/-- A reference is one to an existing object. -/
def liveVal (w : World) : Val → Prop
  | .obj x => x < w.heap.length
  | _ => True

instance (w : World) (v : Val) : Decidable (liveVal w v) := by
  cases v <;> unfold liveVal <;> exact inferInstance

/-- The arguments are those of a Python call: distinct keywords, and references to existing
objects. -/
def ProperArgs (w : World) (args : List Val) (kwargs : Dict String Val) : Prop :=
  (dkeys kwargs).Nodup ∧ ∀ v ∈ args ++ kwargs.map Prod.snd, liveVal w v

instance (w : World) (args : List Val) (kwargs : Dict String Val) :
    Decidable (ProperArgs w args kwargs) := by
  unfold ProperArgs; exact inferInstance

/-- Markers that are given no axis, the fourth parameter of their constructor. -/
def NoAxis (args : List Val) (kwargs : Dict String Val) : Prop :=
  (args[3]?).or (dget kwargs "axis") = some .none

instance (args : List Val) (kwargs : Dict String Val) : Decidable (NoAxis args kwargs) := by
  unfold NoAxis; exact inferInstance

/-- An object that was made with a member of `LineCap`. -/
def HasCap (o : Obj) : Prop :=
  match (dget o.log "__init__").bind (dget · "line_caps") with
  | some (.inst c n) => c = "LineCap" ∧ (n = 1 ∨ n = 2 ∨ n = 3)
  | _ => False

instance (o : Obj) : Decidable (HasCap o) := by
  unfold HasCap
  split <;> exact inferInstance

/-- An action that calls one of the functions `fs`; markers are made without an axis, and paths are
rendered only if they have caps. -/
def PortableAct (fs : List (String × String)) (w : World) : Act → Prop
  | .create cls args kwargs => ProperArgs w args kwargs ∧ (cls, "__init__") ∈ fs ∧
      (cls = "Markers" → NoAxis args kwargs)
  | .call r f args kwargs => ProperArgs w args kwargs ∧ f ≠ "__init__" ∧
      ∀ o, w.heap[r]? = some o → (o.cls, f) ∈ fs ∧ (o.cls = "Paths" → f = "render" → HasCap o)

instance (fs : List (String × String)) (w : World) (a : Act) : Decidable (PortableAct fs w a) := by
  cases a with
  | create cls args kwargs => unfold PortableAct; exact inferInstance
  | call r f args kwargs =>
    exact decidable_of_iff (ProperArgs w args kwargs ∧ f ≠ "__init__" ∧
      (w.heap[r]?).all (fun o => decide ((o.cls, f) ∈ fs ∧
        (o.cls = "Paths" → f = "render" → HasCap o))) = true)
      (by unfold PortableAct; simp only [Option.all_eq_true, decide_eq_true_eq])

/-- All actions of a session do. -/
def PortableSession (fs : List (String × String)) (P : Prog) : World → List Act → Prop
  | _, [] => True
  | w, a :: as => PortableAct fs w a ∧ PortableSession fs P (step P w a.op).1 as

instance (fs : List (String × String)) (P : Prog) : ∀ w as, Decidable (PortableSession fs P w as)
  | _, [] => .isTrue trivial
  | w, a :: as =>
    have := instDecidablePortableSession fs P (step P w a.op).1 as
    inferInstanceAs (Decidable (_ ∧ _))

end Verif
