import Verif.Model.Rounding
import Mathlib.Data.Nat.Digits.Defs
import Mathlib.Data.Int.Log

/-! # Numbers as text: Python's `format`, `split`, `float` and `int`

Used by all the files that the code writes and reads. Texts are lists of characters. The numbers are exact (elements of an ordered field with floor); the text
is what Python prints for a float with exactly this value. `inf`, `nan`, negative zero and digit groups with underscores are not modelled. -/

set_option autoImplicit false

namespace Verif

/-- The character of a digit. -/
def digitChar (d : ℕ) : Char := Char.ofNat (48 + d)

/-- The digit of a character. -/
def digitVal (c : Char) : Option ℕ := if 48 ≤ c.toNat ∧ c.toNat ≤ 57 then some (c.toNat - 48) else none

/-- `str(n)` for a non-negative integer (dynaphopy/generate_cell.py:24, 69-70, 119-129; dynaphopy/interface/iofile/__init__.py:624, 630). -/
def natText (n : ℕ) : List Char := if n = 0 then ['0'] else (Nat.digits 10 n).reverse.map digitChar

/-- The last `n` decimal digits of `f`, with leading zeros. -/
def lastDigits : ℕ → ℕ → List ℕ
  | 0, _ => []
  | n + 1, f => lastDigits n (f / 10) ++ [f % 10]

/-- `n` digits, the point in front of the last `dec` of them (all formats used have `dec > 0`). -/
def pointText (dec m : ℕ) : List Char := natText (m / 10 ^ dec) ++ '.' :: (lastDigits dec m).map digitChar

/-- `format(s, 'w')` of a number: padded with blanks on the left to at least `w` characters. -/
def padLeft (w : ℕ) (s : List Char) : List Char := List.replicate (w - s.length) ' ' ++ s

section
variable {K : Type*} [Field K] [LinearOrder K] [IsStrictOrderedRing K] [FloorRing K]

/-- The minus sign of a negative number; with the flag `+` a plus sign of the others. -/
def signText (plus : Bool) (x : K) : List Char := if x < 0 then ['-'] else if plus then ['+'] else []

/-- `'{:.<dec>f}'.format(x)` (`{0:20.10f}`, `{0:15.15f}`: dynaphopy/generate_cell.py:21-36, 111-129; `{0:10.4f}`, `{0:.8f}`: dynaphopy/interface/iofile/__init__.py:528,
617-630, 727, 756, 781): correctly rounded, ties to even. -/
def fixedText (dec : ℕ) (x : K) : List Char := signText false x ++ pointText dec (roundEven (|x| * 10 ^ dec)).toNat

/-- `'{:<w>.<dec>f}'.format(x)`. -/
def fixedField (w dec : ℕ) (x : K) : List Char := padLeft w (fixedText dec x)

/-- The decimal mantissa (as an integer of `dec + 1` digits) and exponent of `'{:.<dec>e}'.format(x)`. -/
def expParts (dec : ℕ) (x : K) : ℕ × ℤ :=
  if x = 0 then (0, 0)
  else
    let e := Int.log 10 |x|
    let m := (roundEven (|x| * 10 ^ ((dec : ℤ) - e))).toNat
    if m = 10 ^ (dec + 1) then (10 ^ dec, e + 1) else (m, e)

/-- `'{:.<dec>e}'.format(x)`, with the flag `+` if `plus` (dynaphopy/interface/iofile/__init__.py:530; `'%+.8e'`: dynaphopy/__init__.py:688, 694): the exponent has a sign and at least two digits. -/
def expText (plus : Bool) (dec : ℕ) (x : K) : List Char :=
  let p := expParts dec x
  signText plus x ++ pointText dec p.1 ++ 'e' :: (if p.2 < 0 then '-' else '+') :: (if p.2.natAbs < 10 then '0' :: natText p.2.natAbs else natText p.2.natAbs)

end

/-- White space for `split()` and `strip()` (ASCII). -/
def isBlank (c : Char) : Bool := c = ' ' || c = '\t' || c = '\n' || c = '\r' || c = '\x0b' || c = '\x0c'

/-- `s.split()`, `acc` being the (reversed) word that has begun. -/
def splitGo (acc : List Char) : List Char → List (List Char)
  | [] => if acc = [] then [] else [acc.reverse]
  | c :: cs => if isBlank c then (if acc = [] then splitGo [] cs else acc.reverse :: splitGo [] cs) else splitGo (c :: acc) cs

/-- `s.split()` (dynaphopy/interface/iofile/__init__.py:281-320, 567-607; trajectory_parsers.py:57-99, 226-296, 405-440; scripts/fitdata:66, 73). -/
def pySplit (s : List Char) : List (List Char) := splitGo [] s

/-- `s.strip()`. -/
def pyStrip (s : List Char) : List Char := ((s.dropWhile isBlank).reverse.dropWhile isBlank).reverse

/-- The digits at the start of a text and what follows. -/
def takeDigits : List Char → List ℕ × List Char
  | [] => ([], [])
  | c :: cs => match digitVal c with
    | some d => (d :: (takeDigits cs).1, (takeDigits cs).2)
    | none => ([], c :: cs)

/-- The number with these digits. -/
def digitsValue (ds : List ℕ) : ℕ := ds.foldl (fun a d => 10 * a + d) 0

/-- An optional sign (`true`: minus) and what follows. -/
def takeSign : List Char → Bool × List Char
  | '-' :: cs => (true, cs)
  | '+' :: cs => (false, cs)
  | cs => (false, cs)

/-- `int(s)` (dynaphopy/interface/iofile/__init__.py:289, 309; trajectory_parsers.py:45, 212, 413); `none`: ValueError. -/
def pyIntText (s : List Char) : Option ℤ :=
  let t := takeSign (pyStrip s)
  let d := takeDigits t.2
  if d.1 = [] ∨ d.2 ≠ [] then none else some (if t.1 then -(digitsValue d.1 : ℤ) else digitsValue d.1)

/-- The exponent of a floating point number: nothing, or `e`, a sign and digits. -/
def takeExponent : List Char → Option ℤ
  | [] => some 0
  | c :: cs =>
    if c = 'e' ∨ c = 'E' then
      let t := takeSign cs
      let d := takeDigits t.2
      if d.1 = [] ∨ d.2 ≠ [] then none else some (if t.1 then -(digitsValue d.1 : ℤ) else digitsValue d.1)
    else none

/-- The digits behind the point. -/
def takeFraction : List Char → List ℕ × List Char
  | '.' :: cs => takeDigits cs
  | cs => ([], cs)

/-- `float(s)` (dynaphopy/interface/iofile/__init__.py:279-320; trajectory_parsers.py:50-60, 92, 99, 201, 228, 298, 409, 424, 442; scripts/fitdata:73); `none`: ValueError. -/
def pyFloat {K : Type*} [Field K] (s : List Char) : Option K :=
  let t := takeSign (pyStrip s)
  let a := takeDigits t.2
  let b := takeFraction a.2
  if a.1 = [] ∧ b.1 = [] then none
  else (takeExponent b.2).map fun e =>
    let v : K := ((digitsValue (a.1 ++ b.1) : ℕ) : K) / 10 ^ b.1.length * 10 ^ e
    if t.1 then -v else v

end Verif
