import Verif.Model.LammpsLink
import Verif.Props.Arrangement

/-! # C85: trajectories computed with LAMMPS -/

set_option autoImplicit false
set_option linter.unusedSectionVars false

namespace Verif

section lammpsLink
variable {K : Type*} [Field K] [LinearOrder K] [FloorRing K] [IsStrictOrderedRing K]

/-- What LAMMPS guarantees: in state `s` the local place `i` holds the atom number `π i` (its id is that number plus one), with its own position and velocity. -/
structure LTagged (E : LEngine K) (s : E.State) {N : ℕ} (π : Equiv.Perm (Fin N)) (P V : Fin N → Fin 3 → K) : Prop where
  ids : E.ids s = List.ofFn fun i => (π i : ℕ) + 1
  x : E.x s = List.ofFn fun i => P (π i)
  v : E.v s = List.ofFn fun i => V (π i)

theorem takeRows_ofFn {N : ℕ} (f : Fin N → Fin 3 → K) (g : Fin N → Fin N) :
    takeRows (List.ofFn f) (List.ofFn fun i => (g i : ℕ)) = List.ofFn fun i => f (g i) := by
  rw [takeRows, List.map_ofFn]
  congr 1; funext i
  simp [List.getD_eq_getElem?_getD]

theorem LTagged.idArray {E : LEngine K} {s : E.State} {N : ℕ} {π : Equiv.Perm (Fin N)} {P V : Fin N → Fin 3 → K} (h : LTagged E s π P V) :
    idArray E s = List.ofFn fun i => (π i : ℕ) := by
  rw [Verif.idArray, h.ids, List.map_ofFn]; congr 1

theorem lStates_getElem (E : LEngine K) (sampling : ℤ) (n : ℕ) (s : E.State) (i : ℕ) :
    (lStates E sampling n s)[i]? = if i < n then some ((E.exec (.run sampling))^[i + 1] s) else none := by
  induction n generalizing s i with
  | zero => simp [lStates]
  | succ n ih =>
    cases i with
    | zero => simp [lStates]
    | succ i => simp only [lStates, List.getElem?_cons_succ, ih, Function.iterate_succ, Function.comp, add_lt_add_iff_right]

theorem lStates_length (E : LEngine K) (sampling : ℤ) (n : ℕ) (s : E.State) : (lStates E sampling n s).length = n := by
  induction n generalizing s with
  | zero => rfl
  | succ n ih => simp [lStates, ih]

theorem argsort_ofFn {N : ℕ} (ρ : Equiv.Perm (Fin N)) : argsort (List.ofFn fun i => ((ρ i : ℕ) : K)) = List.ofFn fun k => (ρ.symm k : ℕ) := by
  set σ : ℕ → ℕ := fun i => if h : i < N then (ρ ⟨i, h⟩ : ℕ) else i with hσ
  have e : (List.ofFn fun i => ((ρ i : ℕ) : K)) = (List.range N).map fun i => (σ i : K) := by
    apply List.ext_getElem (by simp)
    intro i h1 h2
    have hi : i < N := by simpa using h1
    simp [hσ, hi]
  have hlt : ∀ i < N, σ i < N := by intro i hi; simp [hσ, hi]
  have hinj : ∀ i < N, ∀ j < N, σ i = σ j → i = j := by
    intro i hi j hj h
    simp only [hσ, hi, hj, dif_pos] at h
    simpa using ρ.injective (Fin.ext h)
  rw [e]
  apply List.ext_getElem?
  intro k
  by_cases hk : k < N
  · have h1 := argsort_inverse (K := K) N σ hlt hinj (ρ.symm ⟨k, hk⟩) (ρ.symm ⟨k, hk⟩).2
    have h2 : σ (ρ.symm ⟨k, hk⟩ : ℕ) = k := by simp [hσ]
    rw [h2] at h1
    rw [h1]; simp [List.getElem?_ofFn, hk]
  · rw [List.getElem?_eq_none, List.getElem?_eq_none]
    · simpa using hk
    · rw [(argsort_perm _).length_eq]; simpa using hk

/-- The frame stored for a state `s`, whatever the two local orders: row `σ a` holds atom `π² (π₀² )⁻¹ a`. -/
theorem lFrame_eq {N : ℕ} (E : LEngine K) (arrange : List (Fin 3 → K) → List K) (s0 s : E.State) (π0 π σ : Equiv.Perm (Fin N)) (P0 V0 P V : Fin N → Fin 3 → K)
    (h0 : LTagged E s0 π0 P0 V0) (h : LTagged E s π P V)
    (harr : arrange (List.ofFn fun i => P0 (π0 (π0 i))) = List.ofFn fun i => ((σ (π0 (π0 i)) : ℕ) : K)) :
    lFrame E E.x (lIndexing E arrange s0) s = List.ofFn (fun k => P ((π * π * (π0 * π0)⁻¹) (σ.symm k))) ∧
    lFrame E E.v (lIndexing E arrange s0) s = List.ofFn (fun k => V ((π * π * (π0 * π0)⁻¹) (σ.symm k))) := by
  have hix : lIndexing E arrange s0 = List.ofFn fun k => (((π0 * π0).trans σ).symm k : ℕ) := by
    rw [lIndexing, h0.idArray, h0.x, takeRows_ofFn, harr]
    exact argsort_ofFn ((π0 * π0).trans σ)
  constructor
  · rw [lFrame, hix, h.idArray, h.x, takeRows_ofFn, takeRows_ofFn]
    rfl
  · rw [lFrame, hix, h.idArray, h.v, takeRows_ofFn, takeRows_ofFn]
    rfl

/-- **C85** (order of the atoms). `s0` is the state after the setup, in which atom `a` is recognised as row `σ a` of the structure's supercell (`harr`: the arrangement found
does this for the atoms in any order; `C85_order_partial` gives it for `get_correct_arrangement`). If LAMMPS keeps its local order in all frames, row `σ a` of every stored frame is the velocity (position) of atom `a`,
and frame `i`, with time `i · time_step · sampling`, its energy and its velocities are all those of the state `i + 1` samplings after the relaxation. -/
theorem C85_frames_partial {N : ℕ} (E : LEngine K) (arrange : List (Fin 3 → K) → List K) (totalTime timeStep relaxationTime : K)
    (supercell : ℕ × ℕ × ℕ) (velocityOnly : Bool) (temperature : Option K) (thermostatMass : K) (sampling : ℤ) (r : LResult K)
    (hr : generateLammps E arrange totalTime timeStep relaxationTime supercell velocityOnly temperature thermostatMass sampling = some r)
    (s0 : E.State) (hs0 : lSetup E timeStep supercell temperature thermostatMass = some s0)
    (π0 σ : Equiv.Perm (Fin N)) (P0 V0 : Fin N → Fin 3 → K) (h0 : LTagged E s0 π0 P0 V0)
    (harr : ∀ τ : Equiv.Perm (Fin N), arrange (List.ofFn fun i => P0 (τ i)) = List.ofFn fun i => ((σ (τ i) : ℕ) : K))
    (after : ℕ → E.State) (hafter : ∀ i, after i = (E.exec (.run sampling))^[i + 1] (E.exec (.run (truncZero (relaxationTime / timeStep))) (E.exec .variableEnergy s0)))
    (n : ℕ) (hn : n = r.time.length) (P V : ℕ → Fin N → Fin 3 → K)
    (htag : ∀ i < n, LTagged E (after i) π0 (P i) (V i)) :
    r.velocity.length = n ∧ r.energy.length = n ∧ (∀ T, r.trajectory = some T → T.length = n) ∧ (r.trajectory = none ↔ velocityOnly = true) ∧
    ∀ i < n, r.time[i]? = some ((i : K) * timeStep * sampling) ∧ r.energy[i]? = some (E.energy (after i)) ∧
      ∀ a : Fin N, (∃ f, r.velocity[i]? = some f ∧ f.length = N ∧ f[(σ a : ℕ)]? = some (V i a)) ∧
        ∀ T, r.trajectory = some T → ∃ f, T[i]? = some f ∧ f.length = N ∧ f[(σ a : ℕ)]? = some (P i a) := by
  rw [generateLammps, hs0, Option.map_some, Option.some.injEq] at hr
  subst hr
  simp only [List.length_map, List.length_range] at hn
  have hlen := fun s => lStates_length E sampling n s
  simp only [← hn]
  refine ⟨by simp [hlen], by simp [hlen], ?_, by cases velocityOnly <;> simp, ?_⟩
  · intro T hT
    cases velocityOnly
    · simp only [Bool.false_eq_true, if_false, Option.some.injEq] at hT
      subst hT; simp [hlen]
    · simp at hT
  intro i hi
  have hst : (lStates E sampling n (E.exec (.run (truncZero (relaxationTime / timeStep))) (E.exec .variableEnergy s0)))[i]? = some (after i) := by
    rw [lStates_getElem, if_pos hi, hafter]
  have hf := lFrame_eq E arrange s0 (after i) π0 π0 σ P0 V0 (P i) (V i) h0 (htag i hi) (harr (π0 * π0))
  refine ⟨by simp [hi], by simp [hst], fun a => ⟨?_, ?_⟩⟩
  · refine ⟨_, by rw [List.getElem?_map, hst, Option.map_some], ?_, ?_⟩
    · rw [hf.2]; simp
    · rw [hf.2]; simp [List.getElem?_ofFn]
  · intro T hT
    cases velocityOnly
    · simp only [Bool.false_eq_true, if_false, Option.some.injEq] at hT
      subst hT
      refine ⟨_, by rw [List.getElem?_map, hst, Option.map_some], ?_, ?_⟩
      · rw [hf.1]; simp
      · rw [hf.1]; simp [List.getElem?_ofFn]
    · simp at hT

/-- **C85**, exactly which reorderings of LAMMPS are survived: if the atoms have different positions, row `σ a` of the stored frame is atom `a` for all `a` iff the square of the
local order (as a permutation) is that of the first frame. -/
theorem C85_reordered_iff {N : ℕ} (E : LEngine K) (arrange : List (Fin 3 → K) → List K) (s0 s : E.State) (π0 π σ : Equiv.Perm (Fin N)) (P0 V0 P V : Fin N → Fin 3 → K)
    (h0 : LTagged E s0 π0 P0 V0) (h : LTagged E s π P V) (hinj : Function.Injective P)
    (harr : ∀ τ : Equiv.Perm (Fin N), arrange (List.ofFn fun i => P0 (τ i)) = List.ofFn fun i => ((σ (τ i) : ℕ) : K)) :
    (∀ a : Fin N, (lFrame E E.x (lIndexing E arrange s0) s)[(σ a : ℕ)]? = some (P a)) ↔ π * π = π0 * π0 := by
  rw [(lFrame_eq E arrange s0 s π0 π σ P0 V0 P V h0 h (harr (π0 * π0))).1]
  simp only [List.getElem?_ofFn, Fin.is_lt, dif_pos, Fin.eta, Equiv.symm_apply_apply, Option.some.injEq]
  constructor
  · intro hh
    have : π * π * (π0 * π0)⁻¹ = 1 := Equiv.ext fun a => hinj (hh a)
    exact mul_inv_eq_one.1 this
  · intro hh a
    rw [hh, mul_inv_cancel]; rfl

/-- **C85** with the real arrangement: the hypothesis `harr` of `C85_frames_partial` holds when the atoms of the first frame are a supercell `n` of the structure, under the conditions of
`C54_order_partial` for the atoms (numbered by their LAMMPS id). -/
theorem C85_order_partial {N : ℕ} (positions : List (Fin 3 → K)) (cell : Matrix (Fin 3) (Fin 3) K) (hcell : IsUnit cell.det)
    (n : Fin 3 → ℕ) (hN : N = (positionsSupercell positions cell [n 0, n 1, n 2]).length)
    (P0 : Fin N → Fin 3 → K) (σ : Equiv.Perm (Fin N)) (δ : Fin N → Fin 3 → K) (w : Fin N → Fin 3 → ℤ)
    (href : ∀ a r, (positionsSupercell positions cell [n 0, n 1, n 2])[(σ a : ℕ)]? = some r → ∀ j, P0 a j = r j + ∑ k, (δ a k + w a k * n k) * cell k j)
    (ε : K) (hε : ε ≤ 1 / 4) (hδ : ∀ a k, |δ a k| < ε) (hw : ∀ a k, w a k = -1 ∨ w a k = 0 ∨ w a k = 1)
    (sp : ℕ → Fin 3 → K) (hspdef : sp = scaledCoordinates cell fun j => positions.getD j 0)
    (hsp : ∀ κ < positions.length, ∀ k, 0 ≤ sp κ k ∧ sp κ k < 1)
    (hsep : ∀ κ < positions.length, ∀ j < positions.length, j ≠ κ → ∃ k, ∀ m : ℤ, 3 * ε ≤ |sp κ k - sp j k + m|)
    (hbox : ∀ a k, -(1 / 2) < Matrix.vecMul (P0 a) cell⁻¹ k ∧ Matrix.vecMul (P0 a) cell⁻¹ k < n k + 1 / 2)
    (hreach : ∀ k, ∃ a, n k - 1 / 2 < Matrix.vecMul (P0 a) cell⁻¹ k) (τ : Equiv.Perm (Fin N)) :
    correctArrangement N positions.length sp (scaledCoordinates cell fun i => (List.ofFn fun i => P0 (τ i)).getD i 0) =
      List.ofFn fun i => ((σ (τ i) : ℕ) : K) := by
  have hget : ∀ i (hi : i < N), (List.ofFn fun i => P0 (τ i)).getD i 0 = P0 (τ ⟨i, hi⟩) := by
    intro i hi; simp [List.getD_eq_getElem?_getD, hi]
  have hnn : ∀ i (hi : i < N) (h : N ≤ i), False := fun i hi h => absurd hi (by omega)
  have h := (C54_order_partial (R := K) positions cell hcell n N hN (fun i => (List.ofFn fun i => P0 (τ i)).getD i 0)
    (fun i => if h : i < N then (σ (τ ⟨i, h⟩) : ℕ) else 0) ?_ ?_ (fun i => if h : i < N then δ (τ ⟨i, h⟩) else 0)
    (fun i => if h : i < N then w (τ ⟨i, h⟩) else 0) ?_ ε hε ?_ ?_ sp _ hspdef rfl hsp hsep ?_ ?_).1
  · rw [h]
    apply List.ext_getElem (by simp)
    intro i h1 h2
    have hi : i < N := by simpa using h1
    simp [hi]
  · intro i hi; simp [hi]
  · intro i hi j hj h
    simp only [hi, hj, dif_pos] at h
    have := τ.injective (σ.injective (Fin.ext h))
    simpa using this
  · intro i hi r hr j
    simp only [hi, dif_pos] at hr ⊢
    rw [hget i hi]
    exact href _ r hr j
  · intro i hi k; simp only [hi, dif_pos]; exact hδ _ k
  · intro i hi k; simp only [hi, dif_pos]; exact hw _ k
  · intro i hi k
    simp only [scaledCoordinates, hget i hi]
    exact hbox _ k
  · intro k
    obtain ⟨a, ha⟩ := hreach k
    refine ⟨(τ.symm a : ℕ), (τ.symm a).2, ?_⟩
    simp only [scaledCoordinates, hget _ (τ.symm a).2]
    simpa using ha

/-- **C85** (number of frames): for positive times and interval, the frames fill the total time: one more would exceed it. -/
theorem C85_total_time (E : LEngine K) (arrange : List (Fin 3 → K) → List K) (totalTime timeStep relaxationTime : K)
    (supercell : ℕ × ℕ × ℕ) (velocityOnly : Bool) (temperature : Option K) (thermostatMass : K) (sampling : ℤ) (r : LResult K)
    (hr : generateLammps E arrange totalTime timeStep relaxationTime supercell velocityOnly temperature thermostatMass sampling = some r)
    (ht : 0 ≤ totalTime) (hs : 0 < timeStep) (hi : 0 < sampling) :
    (r.time.length : K) * (timeStep * sampling) ≤ totalTime ∧ totalTime < (r.time.length + 1 : K) * (timeStep * sampling) := by
  rw [generateLammps, Option.map_eq_some_iff] at hr
  obtain ⟨s, -, hr⟩ := hr
  subst hr
  simp only [List.length_map, List.length_range]
  have hsK : (0 : K) < sampling := by exact_mod_cast hi
  have h0 : (0 : K) ≤ totalTime / timeStep / sampling := by positivity
  have hfl : 0 ≤ ⌊totalTime / timeStep / sampling⌋ := Int.floor_nonneg.2 h0
  rw [truncZero, if_pos h0]
  have e : (((⌊totalTime / timeStep / (sampling : K)⌋).toNat : ℕ) : K) = (⌊totalTime / timeStep / (sampling : K)⌋ : K) := by
    have : ((⌊totalTime / timeStep / (sampling : K)⌋.toNat : ℤ)) = ⌊totalTime / timeStep / (sampling : K)⌋ := Int.toNat_of_nonneg hfl
    exact_mod_cast congrArg (Int.cast : ℤ → K) this
  rw [e]
  have h1 := Int.floor_le (totalTime / timeStep / (sampling : K))
  have h2 := Int.lt_floor_add_one (totalTime / timeStep / (sampling : K))
  rw [div_div] at h1 h2 ⊢
  have hp : 0 < timeStep * (sampling : K) := by positivity
  exact ⟨(le_div_iff₀ hp).1 h1, (div_lt_iff₀ hp).1 h2⟩

/-- **C85** (thermostat): the commands before the first frame. With a temperature the run is NVT at it; without one no thermostat is added; initial velocities are created only if all are zero. -/
theorem C85_setup (E : LEngine K) (timeStep : K) (supercell : ℕ × ℕ × ℕ) (temperature : Option K) (thermostatMass : K) (s1 s : E.State)
    (hs1 : s1 = E.exec (.replicate supercell.1 supercell.2.1 supercell.2.2) (E.exec (.timestep timeStep) (E.exec .file E.start)))
    (h : lSetup E timeStep supercell temperature thermostatMass = some s) :
    ∃ s2, s2 = temperature.elim s1 (fun t => E.exec (.nvt t thermostatMass) s1) ∧ 2 ≤ (E.ids s2).length ∧
      ((∃ v ∈ E.v s2, v ≠ 0) → s = E.exec (.run 0) s2) ∧
      ((∀ v ∈ E.v s2, v = 0) → s = E.exec (.run 0) (E.exec (.velocityScale (temperature.getD 100)) (E.exec (.velocityCreate (temperature.getD 100)) s2))) := by
  have hz : ∀ v : Fin 3 → K, v = 0 ↔ (v 0 = 0 ∧ v 1 = 0 ∧ v 2 = 0) := by
    intro v
    constructor
    · rintro rfl; simp
    · rintro ⟨a, b, c⟩; funext j; fin_cases j <;> assumption
  refine ⟨_, rfl, ?_⟩
  subst hs1
  unfold lSetup at h
  simp only [] at h
  set s2 := temperature.elim (E.exec (.replicate supercell.1 supercell.2.1 supercell.2.2) (E.exec (.timestep timeStep) (E.exec .file E.start)))
      (fun t => E.exec (.nvt t thermostatMass) (E.exec (.replicate supercell.1 supercell.2.1 supercell.2.2) (E.exec (.timestep timeStep) (E.exec .file E.start))))
  by_cases hl : (E.ids s2).length < 2
  · simp [hl] at h
  rw [if_neg hl, Option.some.injEq] at h
  refine ⟨by omega, ?_, ?_⟩
  · rintro ⟨v, hv, hne⟩
    rw [if_neg] at h
    · exact h.symm
    · simp only [List.all_eq_true, decide_eq_true_eq, not_forall]
      exact ⟨v, hv, fun hh => hne ((hz v).2 hh)⟩
  · intro hall
    rw [if_pos] at h
    · exact h.symm
    · simp only [List.all_eq_true, decide_eq_true_eq]
      exact fun v hv => (hz v).1 (hall v hv)

/-- **C85** (cell): the cell of the result is the box of LAMMPS after the setup. The point with fractional coordinates `f` of a box with edges `lx, ly, lz` and tilts `xy, xz, yz` is
`(lx f0 + xy f1 + xz f2, ly f1 + yz f2, lz f2)` (LAMMPS documentation, triclinic boxes); it is the point with the same fractional coordinates in the cell given to `Dynamics`. -/
theorem C85_cell (E : LEngine K) (arrange : List (Fin 3 → K) → List K) (totalTime timeStep relaxationTime : K)
    (supercell : ℕ × ℕ × ℕ) (velocityOnly : Bool) (temperature : Option K) (thermostatMass : K) (sampling : ℤ) (r : LResult K)
    (hr : generateLammps E arrange totalTime timeStep relaxationTime supercell velocityOnly temperature thermostatMass sampling = some r) :
    ∃ s, lSetup E timeStep supercell temperature thermostatMass = some s ∧ ∀ lx ly lz xy xz yz : K, E.box s = (lx, ly, lz, xy, xz, yz) →
      ∀ f : Fin 3 → K, Matrix.vecMul f r.supercell = ![lx * f 0 + xy * f 1 + xz * f 2, ly * f 1 + yz * f 2, lz * f 2] := by
  rw [generateLammps, Option.map_eq_some_iff] at hr
  obtain ⟨s, hs, hr⟩ := hr
  subst hr
  refine ⟨s, hs, ?_⟩
  intro lx ly lz xy xz yz hb f
  simp only [hb, lCell]
  funext j
  fin_cases j <;> simp [Matrix.vecMul, dotProduct, Fin.sum_univ_three] <;> ring

end lammpsLink

section lammpsLinkExamples

/-- A LAMMPS with three atoms on a line whose local order is a cyclic permutation after the first run with at least one step. -/
def demoEngine (reorders : Bool) : LEngine ℚ where
  State := ℕ
  start := 0
  exec c s := match c with | .run 0 => s | .run _ => s + 1 | _ => s
  ids s := if reorders = true ∧ 0 < s then [2, 3, 1] else [3, 1, 2]
  x s := if reorders = true ∧ 0 < s then [![7 / 4, 3 / 4, 4 / 5], ![11 / 4, 7 / 10, 3 / 4], ![3 / 4, 3 / 4, 3 / 4]] else [![11 / 4, 7 / 10, 3 / 4], ![3 / 4, 3 / 4, 3 / 4], ![7 / 4, 3 / 4, 4 / 5]]
  v s := if reorders = true ∧ 0 < s then [![2, 0, 0], ![3, 0, 0], ![1, 0, 0]] else [![3, 0, 0], ![1, 0, 0], ![2, 0, 0]]
  energy s := s
  box _ := (3, 1, 1, 0, 0, 0)

/-- The arrangement for a structure with one atom at (3/4, 3/4, 3/4) in a cubic cell. -/
def demoArrange (ref : List (Fin 3 → ℚ)) : List ℚ := correctArrangement ref.length 1 (fun _ _ => 3 / 4) (fun i => ref.getD i 0)

/-- With a constant (cyclic, not self-inverse) local order the three atoms come out in order. -/
example : (generateLammps (demoEngine false) demoArrange 2 1 0 (3, 1, 1) false none (1 / 2) 1).map (fun r => (r.velocity.map fun f => f.map fun v => v 0, r.time, r.energy)) =
    some ([[1, 2, 3], [1, 2, 3]], [0, 1], [1, 2]) := by decide +kernel

/-- The hypotheses of `C85_frames_partial` for this run. -/
example (r : LResult ℚ) (hr : generateLammps (demoEngine false) demoArrange 2 1 0 (3, 1, 1) false none (1 / 2) 1 = some r) :
    ∀ i < r.time.length, ∃ f, r.velocity[i]? = some f ∧ f.length = 3 ∧ f[1]? = some ![2, 0, 0] := by
  intro i hi
  have ht : ∀ s : ℕ, LTagged (demoEngine false) s (⟨![2, 0, 1], ![1, 2, 0], by decide, by decide⟩ : Equiv.Perm (Fin 3))
      ![![3 / 4, 3 / 4, 3 / 4], ![7 / 4, 3 / 4, 4 / 5], ![11 / 4, 7 / 10, 3 / 4]] ![![1, 0, 0], ![2, 0, 0], ![3, 0, 0]] := by
    intro s
    refine ⟨?_, ?_, ?_⟩ <;> simp [demoEngine, List.ofFn_succ]
  have h := (C85_frames_partial (demoEngine false) demoArrange 2 1 0 (3, 1, 1) false none (1 / 2) 1 r hr _ rfl
    (⟨![2, 0, 1], ![1, 2, 0], by decide, by decide⟩ : Equiv.Perm (Fin 3)) 1 _ _ (ht _) (by decide +kernel) _ (fun _ => rfl) _ rfl
    (fun _ => _) (fun _ => _) (fun i _ => ht _)).2.2.2.2 i hi
  exact (h.2.2 1).1

/-- **C85 fails when LAMMPS changes its local order** (it sorts atoms in space during runs): the claim that row `k` is the same atom in all frames is false, even though no atom moves at all. -/
theorem C85_reordered_violated : ¬ ∀ (E : LEngine ℚ) (r : LResult ℚ), generateLammps E demoArrange 2 1 1 (3, 1, 1) false none (1 / 2) 1 = some r →
    (∀ s, ∃ π : Equiv.Perm (Fin 3), LTagged E s π ![![3 / 4, 3 / 4, 3 / 4], ![7 / 4, 3 / 4, 4 / 5], ![11 / 4, 7 / 10, 3 / 4]] ![![1, 0, 0], ![2, 0, 0], ![3, 0, 0]]) →
    ∀ f ∈ r.velocity, f = [![1, 0, 0], ![2, 0, 0], ![3, 0, 0]] := by
  intro h
  have key : (generateLammps (demoEngine true) demoArrange 2 1 1 (3, 1, 1) false none (1 / 2) 1).any (fun r => r.velocity.all fun f => f = [![1, 0, 0], ![2, 0, 0], ![3, 0, 0]]) = false := by
    decide +kernel
  cases hg : generateLammps (demoEngine true) demoArrange 2 1 1 (3, 1, 1) false none (1 / 2) 1 with
  | none => revert hg; decide +kernel
  | some r =>
    have := h (demoEngine true) r hg ?_
    · rw [hg] at key
      simp only [Option.any_some, List.all_eq_false] at key
      obtain ⟨f, hf, hne⟩ := key
      exact hne (by simpa using this f hf)
    · intro (s : ℕ)
      by_cases hs : 0 < s
      · refine ⟨⟨![1, 2, 0], ![2, 0, 1], by decide, by decide⟩, ?_, ?_, ?_⟩ <;> simp [demoEngine, hs, List.ofFn_succ]
      · refine ⟨⟨![2, 0, 1], ![1, 2, 0], by decide, by decide⟩, ?_, ?_, ?_⟩ <;> simp [demoEngine, hs, List.ofFn_succ]

end lammpsLinkExamples

end Verif
