import Verif.Model.Structure
import Mathlib.Analysis.SpecialFunctions.Complex.Circle
import Mathlib.LinearAlgebra.Matrix.Trace
import Mathlib.LinearAlgebra.Matrix.ConjTranspose

/-!
# dynaphopy/projection.py and the wave-vector methods of dynaphopy/__init__.py

All array operations act on each time step separately, so the models are for one time step (one frame).
-/

set_option autoImplicit false

namespace Verif

open Complex in
/-- `project_onto_wave_vector(trajectory, q, project_on_atom)`, dynaphopy/projection.py:4-40, for one time step:
`v` is the mass weighted velocity, `coords = structure.get_positions(supercell)`, `types = get_atom_type_index(supercell)`,
`nPrim = get_number_of_primitive_atoms()`. The result is indexed by type and direction.
The number of atoms is `types.length`. -/
noncomputable def projectOntoWaveVector {d e : ℕ} (v : ℕ → Fin e → ℂ) (q : Fin d → ℝ) (coords : List (Fin d → ℝ))
    (types : List ℕ) (nPrim : ℕ) (projectOnAtom : ℤ) : ℕ → Fin e → ℂ :=
  let m := (List.range types.length).foldl
    (fun (m : ℕ → Fin e → ℂ) i =>
      if projectOnAtom > -1 ∧ ((types.getD i 0 : ℕ) : ℤ) ≠ projectOnAtom then m
      else Function.update m (types.getD i 0) fun k => m (types.getD i 0) k
        + v i k * exp (-I * ((∑ c, q c * coords.getD i 0 c : ℝ) : ℂ)))
    (fun _ _ => 0)
  fun t k => m t k / (Real.sqrt ((types.length : ℝ) / nPrim) : ℂ)

/-- `project_onto_phonon(vc, eigenvectors)`, dynaphopy/projection.py:43-54, one time step. -/
noncomputable def projectOntoPhonon {f n d : ℕ} (vc : Fin n → Fin d → ℂ) (ev : Fin f → Fin n → Fin d → ℂ) : Fin f → ℂ :=
  fun k => (List.finRange n).foldl (fun acc i => acc + ∑ c, vc i c * star (ev k i c)) 0

/-- `project_onto_phonon2(vc, eigenvectors)`, dynaphopy/projection.py:58-70, one time step. -/
noncomputable def projectOntoPhonon2 {f n d : ℕ} (vc : Fin n → Fin d → ℂ) (ev : Fin f → Fin n → Fin d → ℂ) : Fin f → ℂ :=
  fun k => Matrix.trace (Matrix.of vc * (Matrix.of (ev k)).conjTranspose)

/-- `Quasiparticle.get_q_vector`, dynaphopy/__init__.py:167-169. -/
noncomputable def qVector {d : ℕ} (primitiveCell : Matrix (Fin d) (Fin d) ℝ) (q : Fin d → ℝ) : Fin d → ℝ :=
  Matrix.vecMul q ((2 * Real.pi) • (primitiveCell⁻¹).transpose)

section
variable {K : Type*} [Field K] [LinearOrder K] [IsStrictOrderedRing K] [FloorRing K] {d : ℕ}

/-- `np.mod(x, 1)` (dynaphopy/__init__.py:620). -/
def npMod1 (x : K) : K := x - ⌊x⌋

/-- `check_commensurate(q_point, decimals)`, dynaphopy/__init__.py:610-623 (`primitive_matrix` invertible). -/
noncomputable def checkCommensurate (P : Matrix (Fin d) (Fin d) K) (supercell : Fin d → ℕ) (decimals : ℕ)
    (q : Fin d → K) : Bool :=
  decide (∀ i, npMod1 (aroundDec decimals (Matrix.vecMul q P⁻¹ i * supercell i)) = 0)
end

end Verif
