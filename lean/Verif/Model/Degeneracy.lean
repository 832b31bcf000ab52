import Mathlib.Algebra.Order.Field.Basic
import Mathlib.Algebra.Order.Group.Abs

/-! # Degenerate sets and averaging (dynaphopy/analysis/fitting/__init__.py:16-38) -/

set_option autoImplicit false

namespace Verif

variable {K : Type*} [Field K] [LinearOrder K]

/-- One pass of the inner loop of `degenerate_sets` (dynaphopy/analysis/fitting/__init__.py:25-28): state `f_set`, `done`. -/
def degInner (f : ℕ → K) (cutoff : K) (st : List ℕ × List ℕ) (j : ℕ) : List ℕ × List ℕ :=
  if ∃ k ∈ st.1, |f k - f j| < cutoff then (st.1 ++ [j], st.2 ++ [j]) else st

/-- One pass of the outer loop (lines 19-29): state `indices`, `done`. `n` is `len(freqs)`, `f k` is `freqs[k]`. -/
def degOuter (n : ℕ) (f : ℕ → K) (cutoff : K) (st : List (List ℕ) × List ℕ) (i : ℕ) : List (List ℕ) × List ℕ :=
  if i ∈ st.2 then st else
    let r := (List.range' (i + 1) (n - (i + 1))).foldl (degInner f cutoff) ([i], st.2 ++ [i])
    (st.1 ++ [r.1], r.2)

/-- `degenerate_sets(freqs, cutoff)` (dynaphopy/analysis/fitting/__init__.py:16-31). -/
def degenerateSets (n : ℕ) (f : ℕ → K) (cutoff : K) : List (List ℕ) :=
  ((List.range n).foldl (degOuter n f cutoff) ([], [])).1

/-- `np.average([data[:, j] for j in set], axis=0)` (dynaphopy/analysis/fitting/__init__.py:37); `data r j` is row `r`,
branch `j`. -/
def averageColumns (data : ℕ → ℕ → K) (set : List ℕ) (r : ℕ) : K := (set.map (data r)).sum / (set.length : K)

/-- `average_phonon(index, data, degeneracy)` (dynaphopy/analysis/fitting/__init__.py:34-37); `none`: no set holds the index. -/
def averagePhonon (index : ℕ) (data : ℕ → ℕ → K) (degeneracy : List (List ℕ)) : Option (ℕ → K) :=
  (degeneracy.find? (fun set => index ∈ set)).map (averageColumns data)

end Verif
