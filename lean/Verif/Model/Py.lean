/-
Python primitives used by fcs-ql-python.

A Python `str` is modelled as a list of code points (`Nat`).  Python strings may contain lone
surrogates (e.g. the result of `chr(0xD800)`, reachable through the escape `\uD800`), which Lean's
`Char` cannot represent, hence code points and not `Char`s.
-/
set_option autoImplicit false

namespace Fcsql

/-- Python `str`: a list of code points. -/
abbrev PyStr := List Nat

/-- `py!"abc"` is the list of code points of a literal (purely a notation). -/
macro:max "py!" s:str : term => do
  let es ← s.getString.toList.toArray.mapM fun c =>
    `($(Lean.Syntax.mkNumLit (toString c.toNat)))
  `(([ $es,* ] : List Nat))

/-- All code points are valid for a Python `str` (below 0x110000). -/
def ValidStr (s : PyStr) : Prop := ∀ c ∈ s, c < 0x110000

/-- Python slice bound normalisation for a sequence of length `len`
(`s[i:...]`/`s[:i]` with an arbitrary integer `i`). -/
def sliceIdx (len : Nat) (i : Int) : Nat :=
  if i < 0 then (len + i).toNat else min i.toNat len

/-- Python `s[a:b]`. -/
def slice (s : PyStr) (a b : Int) : PyStr :=
  let lo := sliceIdx s.length a
  let hi := sliceIdx s.length b
  (s.take hi).drop lo

/-- Python `s[:b]`. -/
def slicePrefix (s : PyStr) (b : Int) : PyStr := s.take (sliceIdx s.length b)

/-- Python `s.startswith(p)`. -/
def startsWith (s p : PyStr) : Bool := p.isPrefixOf s

/-- Python `s.endswith(p)`. -/
def endsWith (s p : PyStr) : Bool := p.isSuffixOf s

/-- Decimal digits of a natural number, most significant first, prepended to `acc`. -/
def decDigitsAux : Nat → Nat → PyStr → PyStr
  | 0, _, acc => acc
  | fuel + 1, n, acc =>
    if n < 10 then (48 + n) :: acc
    else decDigitsAux fuel (n / 10) ((48 + n % 10) :: acc)

/-- Python `str(n)` for `n ≥ 0`. -/
def decStr (n : Nat) : PyStr := decDigitsAux (n + 1) n []

/-- Python `str(i)`. -/
def intStr (i : Int) : PyStr :=
  if i < 0 then 45 :: decStr i.natAbs else decStr i.natAbs

/-- One upper-case hexadecimal digit. -/
def hexDigitUpper (d : Nat) : Nat := if d < 10 then 48 + d else 55 + d

/-- Upper-case hexadecimal digits, prepended to `acc`. -/
def hexDigitsAux : Nat → Nat → PyStr → PyStr
  | 0, _, acc => acc
  | fuel + 1, n, acc =>
    if n < 16 then hexDigitUpper n :: acc
    else hexDigitsAux fuel (n / 16) (hexDigitUpper (n % 16) :: acc)

/-- Python `f"{n:X}"`. -/
def hexStr (n : Nat) : PyStr := hexDigitsAux (n + 1) n []

/-- ASCII decimal digit. -/
def isDigit (c : Nat) : Bool := 48 ≤ c && c ≤ 57

/-- Value of a string of ASCII digits (Python `int(s)` on such a string). -/
def decValue (s : PyStr) : Nat := s.foldl (fun a c => a * 10 + (c - 48)) 0

/-- The code points for which Python's `str.isspace` holds for the one-character string. -/
def isPySpace (c : Nat) : Bool :=
  (9 ≤ c && c ≤ 13) || (28 ≤ c && c ≤ 32) || c == 133 || c == 160 || c == 5760 ||
  (8192 ≤ c && c ≤ 8202) || c == 8232 || c == 8233 || c == 8239 || c == 8287 || c == 12288

/-- Python `s.isspace()`: non-empty and all characters are whitespace. -/
def isSpaceStr (s : PyStr) : Bool := !s.isEmpty && s.all isPySpace

/-- Python `sep.join(parts)`. -/
def joinStr (sep : PyStr) : List PyStr → PyStr
  | [] => []
  | [x] => x
  | x :: y :: r => x ++ sep ++ joinStr sep (y :: r)

/-- The Unicode normalization forms (`_UnicodeNormalizationForm`, parser.py:42). -/
inductive NormForm | NFC | NFD | NFKC | NFKD
  deriving DecidableEq, Repr

end Fcsql
