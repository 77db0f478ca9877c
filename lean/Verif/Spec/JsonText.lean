import Verif.Model.JsonText
/-
What texts of floats and trees are.
-/

namespace Verif

/-- One or more decimal digits. -/
def Digits (l : List Char) : Prop := l ≠ [] ∧ ∀ c ∈ l, c.isDigit = true

/-- The texts Python's `repr` gives for floats: `nan` and infinities as `json` writes them, and a
sign, an integer without leading zeros, a fraction and an exponent, one of which is present. -/
inductive FloatWord : List Char → Prop
  | nan : FloatWord "NaN".toList
  | inf : FloatWord "Infinity".toList
  | ninf : FloatWord "-Infinity".toList
  | number (sg ip fr ex : List Char) (hs : sg = [] ∨ sg = ['-'])
      (hi : ip = ['0'] ∨ (Digits ip ∧ ip.head? ≠ some '0'))
      (hf : fr = [] ∨ ∃ l, Digits l ∧ fr = '.' :: l)
      (he : ex = [] ∨ ∃ e s l, (e = 'e' ∨ e = 'E') ∧ (s = [] ∨ s = ['+'] ∨ s = ['-']) ∧
        Digits l ∧ ex = e :: (s ++ l))
      (hn : fr ≠ [] ∨ ex ≠ []) : FloatWord (sg ++ (ip ++ (fr ++ ex)))

/-- Values Python can hold: the text of a float is one, and names occur once in a dictionary.
`u` says whether values unknown to `json` are allowed. -/
inductive TreeOK (u : Prop) : JTree → Prop
  | null : TreeOK u .null
  | bool (b : Bool) : TreeOK u (.bool b)
  | int (n : Int) : TreeOK u (.int n)
  | float (s : String) (h : FloatWord s.toList) : TreeOK u (.float s)
  | str (s : String) : TreeOK u (.str s)
  | arr (l : List JTree) (h : ∀ t ∈ l, TreeOK u t) : TreeOK u (.arr l)
  | obj (d : List (String × JTree)) (hk : (d.map Prod.fst).Nodup) (h : ∀ p ∈ d, TreeOK u p.2) :
      TreeOK u (.obj d)
  | unknown (h : u) : TreeOK u .unknown

/-- The texts of floats are as `FloatWord` says, and are read back as the same floats. -/
structure FloatRepr.OK (R : FloatRepr) : Prop where
  word : ∀ n, FloatWord (R.text n).toList
  read : ∀ n, R.read (R.text n) = some n

end Verif
