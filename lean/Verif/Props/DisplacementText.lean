import Verif.Model.DisplacementText
import Verif.Props.Analysis
import Verif.Props.CurveFile

/-! # C88: the characters of the file with the displacements -/

set_option autoImplicit false

namespace Verif

section
variable {K : Type} [Field K] [LinearOrder K] [IsStrictOrderedRing K] [FloorRing K]

/-- **C88** (file): a file is written whenever there are distributions, and its lines are read back (`split` and `float`) as one row for each bin: the displacement, to four decimals, and the densities of that bin, one for each atom type, to
ten digits. The displacement is one bin width below the centre of the bin, so (for bins wider than 10⁻⁴) below the whole bin. -/
theorem C88_text (n : ℕ) (projections : List (List K)) (D : List (List K)) (x : List K) (h : atomicDisplacements n projections = some (D, x)) :
    ∃ (lo w : K) (text : List Char) (F : List (List K)), 0 < w ∧ x = (List.range (n + 1)).map (fun k : ℕ => lo + k * w - w / 2) ∧ displacementText n projections = some text ∧
      numberTable (fileLines text) = some F ∧ F.length = n ∧
      ∀ i < n, ∃ y row, F[i]? = some (y :: row) ∧ |y - (lo + (i + 1 / 2) * w - w)| ≤ 1 / 20000 ∧ (1 / 10000 < w → y < lo + i * w) ∧ row.length = D.length ∧
        ∀ (j : ℕ) (d : List K), D[j]? = some d → ∃ v z, row[j]? = some v ∧ d[i]? = some z ∧ |v - z| ≤ |z| * (1 / 2 / 10 ^ 10) := by
  obtain ⟨lo, w, hw, -, -, hlen, hx, hD⟩ := C88_density_partial n projections D x h
  have hget : ∀ i : ℕ, i < n → x.getD i 0 = lo + i * w - w / 2 := by
    intro i hi
    rw [hx, List.getD_eq_getElem?_getD, List.getElem?_map, List.getElem?_range (by omega), Option.map_some, Option.getD_some]
  let rows : List (K × List K) := (List.range n).map fun i => (x.getD i 0, D.map fun c => c.getD i 0)
  have e1 : rows.map Prod.fst ++ [lo + n * w - w / 2] = x := by
    rw [hx, List.range_succ, List.map_append]
    simp only [rows, List.map_map]
    congr 1
    exact List.map_congr_left fun i hi => hget i (List.mem_range.1 hi)
  have e2 : rows.map Prod.snd = (List.range n).map fun i => D.map fun c => c.getD i 0 := by simp [rows, Function.comp_def]
  have ht := curveText_eq rows [lo + n * w - w / 2]
  rw [e1, e2] at ht
  have hlines : fileLines ((rows.map fun p => curveBody p.1 p.2).flatMap fun l => l ++ ['\n']) = rows.map fun p => curveBody p.1 p.2 := by
    refine fileLines_lines _ ?_
    intro l hl
    obtain ⟨p, -, rfl⟩ := List.mem_map.1 hl
    exact curveBody_newline _ _
  refine ⟨lo, w, (rows.map fun p => curveBody p.1 p.2).flatMap fun l => l ++ ['\n'], rows.map fun p => aroundDec 4 p.1 :: p.2.map sciValue, hw, hx, by rw [displacementText, h, Option.bind_some]; exact ht, by rw [hlines]; exact numberTable_curve rows D.length (by intro p hp; obtain ⟨i, -, rfl⟩ := List.mem_map.1 hp; simp), by simp [rows], fun i hi => ?_⟩
  have herr := aroundDec_error 4 (x.getD i 0)
  rw [hget i hi] at herr
  norm_num at herr
  refine ⟨aroundDec 4 (x.getD i 0), (D.map fun c => c.getD i 0).map sciValue, by simp only [rows, List.getElem?_map, List.getElem?_range hi, Option.map_some], ?_, fun hw4 => ?_, by simp, fun j d hd => ?_⟩
  · rw [hget i hi]
    have : lo + (i + 1 / 2) * w - w = lo + i * w - w / 2 := by ring
    rw [this]
    norm_num
    exact herr
  · rw [hget i hi]
    have := (abs_le.1 herr).2
    linarith
  · have hpj : ∃ p, projections[j]? = some p := by
      have hj : j < D.length := (List.getElem?_eq_some_iff.1 hd).1
      exact ⟨_, List.getElem?_eq_getElem (by omega)⟩
    obtain ⟨p, hp⟩ := hpj
    obtain ⟨hdl, -⟩ := hD j p d hp hd
    refine ⟨sciValue (d.getD i 0), d.getD i 0, by simp [hd], ?_, sciValue_error _⟩
    rw [List.getD_eq_getElem?_getD, List.getElem?_eq_getElem (by omega), Option.getD_some]

end

/-- Two atom types with three samples each, two bins: the file and what is read from it. -/
example : (displacementText (K := ℚ) 2 [[-1, 0, 1], [1 / 2, 1 / 4, 1 / 3]]).map String.ofList = some "   -1.5000\t3.3333333333e-01\t0.0000000000e+00\t\n   -0.5000\t6.6666666667e-01\t1.0000000000e+00\t\n" := by decide +kernel

end Verif
