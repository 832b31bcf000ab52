import Verif.Model.Text
import Verif.Model.Settings

/-! # Progress bars -/

set_option autoImplicit false

namespace Verif

section
variable {K : Type} [Field K] [LinearOrder K] [IsStrictOrderedRing K] [FloorRing K]

/-- `_progress_bar(progress, label)` (dynaphopy/power_spectrum/__init__.py:12-30; the same with the label `Trajectory` in dynaphopy/analysis/coordinates.py:6-24): the characters sent to the terminal, for a number `progress` (all callers give one). -/
def progressText (label : List Char) (progress : K) : List Char :=
  let p1 : K × List Char := if progress < 0 then (0, "Halt ...\r\n".toList) else (progress, [])
  let p2 : K × List Char := if 1 ≤ p1.1 then (1, "Done...\r\n".toList) else p1
  let block := (roundEven (30 * p2.1)).toNat
  '\r' :: (label ++ ": [".toList ++ (List.replicate block '#' ++ List.replicate (30 - block) '-') ++ "] ".toList ++ fixedText 2 (p2.1 * 100) ++ "% ".toList ++ p2.2)

/-- The values given to the bar for the spectra of `m` columns (dynaphopy/power_spectrum/__init__.py:62-71, 91-99, 259-266, 304-311, 349-356, 419-428). -/
def spectraProgress (m : ℕ) : List K := 0 :: (List.range m).map fun i => ((i + 1 : ℕ) : K) / m

/-- The values given to the bar while a test trajectory is generated (dynaphopy/interface/iofile/__init__.py:397-420). -/
def testProgress (totalTime timeStep : K) : List K := 0 :: (arange 0 totalTime timeStep).map fun t => (t + timeStep) / totalTime

/-- The values given to the bar during a LAMMPS run, each with the number of `run` commands of the sampling that have been executed at that moment (dynaphopy/interface/lammps_link.py:111-119). -/
def lammpsProgress (totalTime timeStep : K) (samplingInterval : ℕ) : List (K × ℕ) :=
  (0, 0) :: (List.range (pyInt (totalTime / timeStep / samplingInterval)).toNat).map fun i => (((i + 1 : ℕ) : K) * timeStep * samplingInterval / totalTime, i)

/-- How a number of coefficients fares in the scan: a spectrum with nan, a fit that fails, or a good fit (dynaphopy/power_spectrum/__init__.py:135-150). -/
inductive ScanPoint
  | nan
  | bad
  | good
  deriving DecidableEq

/-- What is printed during the scan of the numbers of coefficients of one column (dynaphopy/power_spectrum/__init__.py:119-163). -/
def scanOutput (K : Type) [Field K] [LinearOrder K] [IsStrictOrderedRing K] [FloorRing K] (range : List ℕ) (fate : ℕ → ScanPoint) : List Char :=
  progressText (K := K) "ME Coeff.".toList 0 ++ range.flatMap fun n => match fate n with
    | .nan => "Warning: power spectrum error, skipping point ".toList ++ natText n ++ ['\n']
    | .bad => "Warning: Fitting error, skipping point ".toList ++ natText n ++ ['\n']
    | .good => progressText "M.E. Method".toList (((n + 1 : ℕ) : K) / (range.getLastD 0 : ℕ))

end

/-- A terminal (not code of the repository, but where the text of dynaphopy/power_spectrum/__init__.py:28-30 appears): the lines that are finished, the line with the cursor, and its column. Lines are as long as needed. -/
structure Terminal where
  lines : List (List Char)
  line : List Char
  column : ℕ
  deriving DecidableEq

/-- A character arrives: `\r` moves the cursor to the start of the line, `\n` to a new line, all others are written over what is there. -/
def Terminal.put (t : Terminal) (c : Char) : Terminal :=
  if c = '\r' then { t with column := 0 }
  else if c = '\n' then ⟨t.lines ++ [t.line], [], 0⟩
  else { t with line := t.line.take t.column ++ c :: t.line.drop (t.column + 1), column := t.column + 1 }

/-- A text arrives. -/
def Terminal.display (t : Terminal) (s : List Char) : Terminal := s.foldl Terminal.put t

end Verif
