import Verif.Model.Convert

namespace Verif

/-! Specification: a finite map, updated at points. -/

abbrev ConvMap := String × String → Option Nat

/-- Registering several source types: from left to right, up to the first one taken. -/
def ConvMap.register (m : ConvMap) : List String → String → Nat → ConvMap
  | [], _, _ => m
  | s :: ss, dst, f =>
    if m (s, dst) = none then
      ConvMap.register (fun k => if k = (s, dst) then some f else m k) ss dst f
    else m

def ConvMap.unregister (m : ConvMap) (srcs : List String) (dst : String) : ConvMap :=
  fun k => if k.1 ∈ srcs ∧ k.2 = dst then none else m k

def ConvMap.step (m : ConvMap) : ConvOp → ConvMap
  | .register srcs dst f => m.register srcs dst f
  | .unregister srcs dst => m.unregister srcs dst

def ConvMap.run (ops : List ConvOp) : ConvMap := ops.foldl ConvMap.step (fun _ => none)

/-- The converter of a pair of types: the exact one, else the wildcard. -/
def ConvMap.serves (m : ConvMap) (src dst : String) : Option Nat :=
  match m (src, dst) with
  | some f => some f
  | none => m ("*", dst)

/-- The types that a looked up thing is taken for, in order: a type for itself, a string for
the type it names when that is served and for "str" otherwise, any other value for its class
and then for the direct bases of its class. -/
def ConvMap.takenFor (m : ConvMap) (dst : String) : Src → List String
  | .type n => [n, "object"]
  | .text s => if m.serves s dst ≠ none then [s, "object"] else ["str", "object"]
  | .value c bs => c :: bs

/-- `f` is the converter of the first of these types that has one. -/
def ConvMap.First (m : ConvMap) (types : List String) (dst : String) (f : Nat) : Prop :=
  ∃ pre c post, types = pre ++ c :: post ∧ (∀ p ∈ pre, m.serves p dst = none) ∧
    m.serves c dst = some f

end Verif
