import Verif.Model.Inputs
import Verif.Model.TrajectoryText

/-! # The input file character by character (dynaphopy/interface/iofile/__init__.py:537-606) -/

set_option autoImplicit false

namespace Verif

section
variable {K : Type} [Field K]

/-- Python's conversions in `read_parameters_from_input_file` (iofile/__init__.py:554-604). -/
def pythonInput : InputCodec K where
  ints l := (pySplit l).mapM pyIntText
  floats := floatWords
  strip := pyStrip

/-- `read_parameters_from_input_file` (iofile/__init__.py:537-606) on the text of the file. -/
def readInputText (text : List Char) : Option (InputParameters K) := readParameters pythonInput (fileLines text)

end

end Verif
