/-
Python primitives used by the model: exceptions, dictionaries, strings.
They model the Python language and its standard library, not a file of /repo.
-/

namespace Verif

/-- Python exceptions raised by the modelled code. -/
inductive Err where
  | typeError
  | valueError
  | keyError
  | indexError
  | attributeError
  | nameError
  | zeroDivision
  | notImplemented
  | recursion
  | other (n : Nat)
deriving DecidableEq, Repr

deriving instance DecidableEq for Except

/-- A Python `dict`: an association list in insertion order. -/
abbrev Dict (κ ν : Type) := List (κ × ν)

variable {κ ν : Type} [DecidableEq κ]

/-- `d.get(k)`; also `d[k]`, where `none` stands for `KeyError`. -/
def dget : Dict κ ν → κ → Option ν
  | [], _ => none
  | (k', v) :: d, k => if k' = k then some v else dget d k

/-- `d[k] = v`: an existing key keeps its place, a new key goes last. -/
def dset : Dict κ ν → κ → ν → Dict κ ν
  | [], k, v => [(k, v)]
  | (k', v') :: d, k, v => if k' = k then (k', v) :: d else (k', v') :: dset d k v

/-- `del d[k]` (nothing happens if the key is absent; callers test first). -/
def ddel (d : Dict κ ν) (k : κ) : Dict κ ν := d.filter (fun p => p.1 ≠ k)

/-- `k in d`. -/
def dhas (d : Dict κ ν) (k : κ) : Bool := (dget d k).isSome

/-- `d.keys()`. -/
def dkeys (d : Dict κ ν) : List κ := d.map Prod.fst

/-- `d | e` (Python 3.9): the entries of `e` win. -/
def dunion (d e : Dict κ ν) : Dict κ ν := e.foldl (fun acc p => dset acc p.1 p.2) d

/-- `c in s` for a one-character string `c`. -/
def hasChar (c : Char) (s : String) : Bool := s.toList.contains c

/-- `s.split(c)` for a one-character separator, on character lists. -/
def splitChars (c : Char) : List Char → List (List Char)
  | [] => [[]]
  | a :: s =>
    if a = c then [] :: splitChars c s
    else match splitChars c s with
      | [] => [[a]]
      | w :: ws => (a :: w) :: ws

/-- `s.split(c)`. -/
def pySplit (c : Char) (s : String) : List String :=
  (splitChars c s.toList).map String.ofList

/-- `key.endswith("(id)")`. -/
def endsWithId (s : String) : Bool := ['(', 'i', 'd', ')'].isSuffixOf s.toList

/-- `key[:-4]`. -/
def dropId (s : String) : String := String.ofList (s.toList.take (s.toList.length - 4))

end Verif
