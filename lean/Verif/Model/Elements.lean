import Verif.Model.Rounding
import Mathlib.Data.Rat.Floor

/-!
# Element tables and the inference of elements, atomic numbers and masses in `Structure.__init__`

The two tables are copied from dynaphopy/atoms.py (`tools/` keeps no generator: the text below is the table).
-/

set_option autoImplicit false

namespace Verif

/-- `atom_data`, dynaphopy/atoms.py:383-503: (symbol, mass), the row number being the atomic number (the code indexes the
list by position; the first column of the table equals the position). The English names are left out. -/
def atomData : List (String × ℚ) := [
  ("X", 0),
  ("H", 100794 / 100000),
  ("He", 4002602 / 1000000),
  ("Li", 6941 / 1000),
  ("Be", 9012182 / 1000000),
  ("B", 10811 / 1000),
  ("C", 120107 / 10000),
  ("N", 140067 / 10000),
  ("O", 159994 / 10000),
  ("F", 189984032 / 10000000),
  ("Ne", 201797 / 10000),
  ("Na", 2298976928 / 100000000),
  ("Mg", 243050 / 10000),
  ("Al", 269815386 / 10000000),
  ("Si", 280855 / 10000),
  ("P", 30973762 / 1000000),
  ("S", 32065 / 1000),
  ("Cl", 35453 / 1000),
  ("Ar", 39948 / 1000),
  ("K", 390983 / 10000),
  ("Ca", 40078 / 1000),
  ("Sc", 44955912 / 1000000),
  ("Ti", 47867 / 1000),
  ("V", 509415 / 10000),
  ("Cr", 519961 / 10000),
  ("Mn", 54938045 / 1000000),
  ("Fe", 55845 / 1000),
  ("Co", 58933195 / 1000000),
  ("Ni", 586934 / 10000),
  ("Cu", 63546 / 1000),
  ("Zn", 6538 / 100),
  ("Ga", 69723 / 1000),
  ("Ge", 7264 / 100),
  ("As", 7492160 / 100000),
  ("Se", 7896 / 100),
  ("Br", 79904 / 1000),
  ("Kr", 83798 / 1000),
  ("Rb", 854678 / 10000),
  ("Sr", 8762 / 100),
  ("Y", 8890585 / 100000),
  ("Zr", 91224 / 1000),
  ("Nb", 9290638 / 100000),
  ("Mo", 9596 / 100),
  ("Tc", 0),
  ("Ru", 10107 / 100),
  ("Rh", 10290550 / 100000),
  ("Pd", 10642 / 100),
  ("Ag", 1078682 / 10000),
  ("Cd", 112411 / 1000),
  ("In", 114818 / 1000),
  ("Sn", 118710 / 1000),
  ("Sb", 121760 / 1000),
  ("Te", 12760 / 100),
  ("I", 12690447 / 100000),
  ("Xe", 131293 / 1000),
  ("Cs", 1329054519 / 10000000),
  ("Ba", 137327 / 1000),
  ("La", 13890547 / 100000),
  ("Ce", 140116 / 1000),
  ("Pr", 14090765 / 100000),
  ("Nd", 144242 / 1000),
  ("Pm", 0),
  ("Sm", 15036 / 100),
  ("Eu", 151964 / 1000),
  ("Gd", 15725 / 100),
  ("Tb", 15892535 / 100000),
  ("Dy", 162500 / 1000),
  ("Ho", 16493032 / 100000),
  ("Er", 167259 / 1000),
  ("Tm", 16893421 / 100000),
  ("Yb", 173054 / 1000),
  ("Lu", 1749668 / 10000),
  ("Hf", 17849 / 100),
  ("Ta", 18094788 / 100000),
  ("W", 18384 / 100),
  ("Re", 186207 / 1000),
  ("Os", 19023 / 100),
  ("Ir", 192217 / 1000),
  ("Pt", 195084 / 1000),
  ("Au", 196966569 / 1000000),
  ("Hg", 20059 / 100),
  ("Tl", 2043833 / 10000),
  ("Pb", 2072 / 10),
  ("Bi", 20898040 / 100000),
  ("Po", 0),
  ("At", 0),
  ("Rn", 0),
  ("Fr", 0),
  ("Ra", 0),
  ("Ac", 0),
  ("Th", 23203806 / 100000),
  ("Pa", 23103588 / 100000),
  ("U", 23802891 / 100000),
  ("Np", 0),
  ("Pu", 0),
  ("Am", 0),
  ("Cm", 0),
  ("Bk", 0),
  ("Cf", 0),
  ("Es", 0),
  ("Fm", 0),
  ("Md", 0),
  ("No", 0),
  ("Lr", 0),
  ("Rf", 0),
  ("Db", 0),
  ("Sg", 0),
  ("Bh", 0),
  ("Hs", 0),
  ("Mt", 0),
  ("Ds", 0),
  ("Rg", 0),
  ("Cn", 0),
  ("Uut", 0),
  ("Uuq", 0),
  ("Uup", 0),
  ("Uuh", 0),
  ("Uus", 0),
  ("Uuo", 0)]

/-- `symbol_map`, dynaphopy/atoms.py:505-624. -/
def symbolMap : List (String × ℕ) := [
  ("H", 1), ("He", 2), ("Li", 3), ("Be", 4), ("B", 5), ("C", 6), ("N", 7), ("O", 8),
  ("F", 9), ("Ne", 10), ("Na", 11), ("Mg", 12), ("Al", 13), ("Si", 14), ("P", 15), ("S", 16),
  ("Cl", 17), ("Ar", 18), ("K", 19), ("Ca", 20), ("Sc", 21), ("Ti", 22), ("V", 23), ("Cr", 24),
  ("Mn", 25), ("Fe", 26), ("Co", 27), ("Ni", 28), ("Cu", 29), ("Zn", 30), ("Ga", 31), ("Ge", 32),
  ("As", 33), ("Se", 34), ("Br", 35), ("Kr", 36), ("Rb", 37), ("Sr", 38), ("Y", 39), ("Zr", 40),
  ("Nb", 41), ("Mo", 42), ("Tc", 43), ("Ru", 44), ("Rh", 45), ("Pd", 46), ("Ag", 47), ("Cd", 48),
  ("In", 49), ("Sn", 50), ("Sb", 51), ("Te", 52), ("I", 53), ("Xe", 54), ("Cs", 55), ("Ba", 56),
  ("La", 57), ("Ce", 58), ("Pr", 59), ("Nd", 60), ("Pm", 61), ("Sm", 62), ("Eu", 63), ("Gd", 64),
  ("Tb", 65), ("Dy", 66), ("Ho", 67), ("Er", 68), ("Tm", 69), ("Yb", 70), ("Lu", 71), ("Hf", 72),
  ("Ta", 73), ("W", 74), ("Re", 75), ("Os", 76), ("Ir", 77), ("Pt", 78), ("Au", 79), ("Hg", 80),
  ("Tl", 81), ("Pb", 82), ("Bi", 83), ("Po", 84), ("At", 85), ("Rn", 86), ("Fr", 87), ("Ra", 88),
  ("Ac", 89), ("Th", 90), ("Pa", 91), ("U", 92), ("Np", 93), ("Pu", 94), ("Am", 95), ("Cm", 96),
  ("Bk", 97), ("Cf", 98), ("Es", 99), ("Fm", 100), ("Md", 101), ("No", 102), ("Lr", 103), ("Rf", 104),
  ("Db", 105), ("Sg", 106), ("Bh", 107), ("Hs", 108), ("Mt", 109), ("Ds", 110), ("Rg", 111), ("Cn", 112),
  ("Uut", 113), ("Uuq", 114), ("Uup", 115), ("Uuh", 116), ("Uus", 117), ("Uuo", 118)]

/-- `"{0:.1f}".format(m)` (dynaphopy/atoms.py:60): the number of tenths printed (two non-negative numbers print the same text iff
these numbers agree). Ties (Gd, 157.25, exactly representable in binary) go to the even digit. -/
def tenths (m : ℚ) : ℤ := roundEven (10 * m)

/-- Elements from masses, dynaphopy/atoms.py:56-61: *every* matching table row is appended. -/
def inferElements (masses : List ℚ) : List String :=
  masses.flatMap fun m => (atomData.filter fun j => tenths m = tenths j.2).map Prod.fst

/-- `[symbol_map[i] for i in elements]`, dynaphopy/atoms.py:65 (`KeyError` is `none`). -/
def inferNumbers (elements : List String) : Option (List ℕ) :=
  elements.mapM fun e => symbolMap.lookup e

/-- `[atom_data[i][3] for i in numbers]`, dynaphopy/atoms.py:70 (`IndexError` is `none`). -/
def inferMasses (numbers : List ℕ) : Option (List ℚ) :=
  numbers.mapM fun i => atomData[i]?.map Prod.snd

/-- `self._atomic_elements` after dynaphopy/atoms.py:56-61. -/
def initElements (masses : Option (List ℚ)) (elements : Option (List String)) : Option (List String) :=
  match elements with
  | some e => some e
  | none => masses.map inferElements

/-- `self._atomic_numbers` after dynaphopy/atoms.py:64-67 (outer `none`: `KeyError`; inner `none`: no numbers). -/
def initNumbers (numbers : Option (List ℕ)) (elements' : Option (List String)) : Option (Option (List ℕ)) :=
  match numbers with
  | some n => some (some n)
  | none => match elements' with
    | some e => (inferNumbers e).map some
    | none => some none

/-- What `Structure.__init__` (dynaphopy/atoms.py:55-72) makes of the arguments `masses`, `atomic_numbers` and
`atomic_elements`: (elements, numbers, masses). With none of the three given, line 70 iterates over a 0-d
array and raises. -/
def initAtoms (masses : Option (List ℚ)) (numbers : Option (List ℕ)) (elements : Option (List String)) :
    Option (Option (List String) × Option (List ℕ) × List ℚ) :=
  (initNumbers numbers (initElements masses elements)).bind fun numbers' =>
    match masses with
    | some m => some (initElements masses elements, numbers', m)
    | none => match numbers' with
      | some n => (inferMasses n).map fun m => (initElements masses elements, numbers', m)
      | none => none

end Verif
