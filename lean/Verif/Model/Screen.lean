import Mathlib.Data.List.FinRange
import Mathlib.Data.Rat.Defs

/-! # The list of frequencies on the screen (dynaphopy/interface/interactive_ui.py:13-19, 120-125) -/

set_option autoImplicit false

namespace Verif

/-- One call of `screen.addstr` in `list_on_screen` (interactive_ui.py:19): line, column, the number in front of the colon and the frequency after it. -/
structure ScreenItem (K : Type) where
  row : ℕ
  column : ℕ
  number : ℕ
  value : K
  deriving DecidableEq

/-- `list_on_screen(screen, pile, posx, posy)` (interactive_ui.py:13-19) on a screen with `height` lines: `reshape((-1, 3))` (`none`: ValueError), two nested loops, `addstr` raises `curses.error` (`none`) below the
last line. The screen is taken to be wide enough. -/
def listOnScreen {K : Type} (height : ℕ) (pile : List K) (posx posy : ℕ) : Option (List (ScreenItem K)) :=
  if pile.length % 3 ≠ 0 then none
  else
    ((List.range (pile.length / 3)).flatMap fun i => (List.range 3).map fun j => (i, j)).mapM fun ij =>
      if posx + ij.1 < height then (pile[3 * ij.1 + ij.2]?).map fun v => ⟨posx + ij.1, posy + ij.2 * 20, ij.1 * 3 + ij.2 + 1, v⟩ else none

end Verif
