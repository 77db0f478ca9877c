import Verif.Model.Py
/-
Base64, as used for buffer contents (gsp/io/json.py:15-18,21-22 and
gsp_matplotlib/core/buffer.py:22-24). Models the standard library functions
`base64.b64encode(..).decode()` and `base64.b64decode`.
-/

namespace Verif

/-- The base64 alphabet. -/
def b64Alphabet : List Char :=
   ['A', 'B', 'C', 'D', 'E', 'F', 'G', 'H', 'I', 'J', 'K', 'L', 'M', 'N', 'O', 'P',
    'Q', 'R', 'S', 'T', 'U', 'V', 'W', 'X', 'Y', 'Z', 'a', 'b', 'c', 'd', 'e', 'f',
    'g', 'h', 'i', 'j', 'k', 'l', 'm', 'n', 'o', 'p', 'q', 'r', 's', 't', 'u', 'v',
    'w', 'x', 'y', 'z', '0', '1', '2', '3', '4', '5', '6', '7', '8', '9', '+', '/']

/-- The character of a 6-bit value. -/
def b64Char (n : Nat) : Char := b64Alphabet[n]?.getD '='

/-- The position of a character in a list. -/
def posIn (c : Char) : List Char → Nat → Option Nat
  | [], _ => none
  | a :: l, i => if a = c then some i else posIn c l (i + 1)

/-- The 6-bit value of a character. -/
def b64Val (c : Char) : Option Nat := posIn c b64Alphabet 0

/-- `base64.b64encode` (gsp/io/json.py:16,18,22): three bytes at a time, with padding. -/
def b64encode : List Nat → List Char
  | [] => []
  | [a] => [b64Char (a / 4), b64Char (a % 4 * 16), '=', '=']
  | [a, b] => [b64Char (a / 4), b64Char (a % 4 * 16 + b / 16), b64Char (b % 16 * 4), '=']
  | a :: b :: c :: rest =>
    b64Char (a / 4) :: b64Char (a % 4 * 16 + b / 16) :: b64Char (b % 16 * 4 + c / 64) ::
      b64Char (c % 64) :: b64encode rest

/-- `base64.b64decode` (gsp_matplotlib/core/buffer.py:24). `none` stands for
`binascii.Error`. Simplification: Python skips characters outside the alphabet, here they
are errors. -/
def b64decode : List Char → Option (List Nat)
  | [] => some []
  | x :: y :: z :: t :: rest =>
    match b64Val x, b64Val y with
    | some i, some j =>
      if z = '=' then
        if t = '=' ∧ rest = [] then some [i * 4 + j / 16] else none
      else match b64Val z with
        | none => none
        | some k =>
          if t = '=' then
            if rest = [] then some [i * 4 + j / 16, j % 16 * 16 + k / 4] else none
          else match b64Val t with
            | none => none
            | some l =>
              (b64decode rest).map (fun r =>
                (i * 4 + j / 16) :: (j % 16 * 16 + k / 4) :: (k % 4 * 64 + l) :: r)
    | _, _ => none
  | _ => none

end Verif
