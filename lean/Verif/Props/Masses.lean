import Verif.Model.Masses
import Verif.Props.Structure
import Verif.Props.Dynamics

/-! # C144: masses or structure changed after values have been computed -/

set_option autoImplicit false
set_option linter.unusedSectionVars false

namespace Verif

section Dynamics

variable {K F M : Type*} [Field K] [LinearOrder K] [IsStrictOrderedRing K] [FloorRing K]
  [AddCommGroup F] [Module K F]

/-- A call other than `get_velocity_mass_average`. -/
def DynOp.NoMass : DynOp → Prop
  | .velocityMass => False
  | _ => True

theorem step_withMasses (env : DynEnv F M) (w : F → F) (s : Dyn K F M) (op : DynOp) (h : op.NoMass) :
    op.step (env.withMasses w) s = op.step env s := by
  cases op with
  | velocityMass => exact h.elim
  | _ => rfl

theorem run_withMasses (env : DynEnv F M) (w : F → F) (ops : List DynOp) (h : ∀ op ∈ ops, op.NoMass)
    (s : Dyn K F M) : DynOp.run (env.withMasses w) ops s = DynOp.run env ops s := by
  induction ops generalizing s with
  | nil => rfl
  | cons op ops ih =>
    simp only [DynOp.run]
    rw [step_withMasses env w s op (h op (by simp))]
    congr 1
    funext s'
    exact ih (fun o ho => h o (by simp [ho])) s'

theorem dynRun_append (env : DynEnv F M) (a b : List DynOp) (s : Dyn K F M) :
    DynOp.run env (a ++ b) s = (DynOp.run env a s).bind (DynOp.run env b) := by
  induction a generalizing s with
  | nil => rfl
  | cons op ops ih =>
    simp only [List.cons_append, DynOp.run, Option.bind_assoc]
    congr 1
    funext s'
    exact ih s'

/-- C144: masses set after any history of calls that does not contain `get_velocity_mass_average` act as if they had
been set before that history: every later history, and every later mass weighted velocity, is that of an object that had
the new masses from the start. -/
theorem C144_late_masses (env : DynEnv F M) (w : F → F) (s0 : Dyn K F M) (before after : List DynOp)
    (h : ∀ op ∈ before, op.NoMass) :
    (DynOp.run env before s0).bind (DynOp.run (env.withMasses w) after)
        = DynOp.run (env.withMasses w) (before ++ after) s0 ∧
    ((DynOp.run env before s0).bind fun s => s.getVelocityMass (env.withMasses w))
        = (DynOp.run (env.withMasses w) before s0).bind fun s => s.getVelocityMass (env.withMasses w) := by
  rw [dynRun_append, run_withMasses env w before h]
  exact ⟨rfl, rfl⟩

/-- C144: after any history, a successful `crop_trajectory` to a positive number of steps makes the object use the
masses set afterwards: the mass weighted velocities are the velocities times the new factors. -/
theorem C144_after_crop (env : DynEnv F M) (w : F → F) (s s' : Dyn K F M) (n : ℕ) (hn : 0 < n)
    (hc : s.crop env (some n) = some s') :
    ∃ v, s'.velocity = some v ∧
      (s'.getVelocityMass (env.withMasses w)).map Prod.fst = some (v.map w) := by
  unfold Dyn.crop at hc
  have hz : ¬ ((n : ℤ) ≤ 0) := by omega
  simp only [hz, if_false, Option.bind_eq_some_iff, Prod.exists] at hc
  obtain ⟨v, s1, _, hc⟩ := hc
  split at hc
  · cases hc
  · simp only [Option.some.injEq] at hc
    subst hc
    exact ⟨_, rfl, rfl⟩

/-- C144, violated part: once `get_velocity_mass_average` has returned, no later change of the masses, nor of the
whole structure (`set_structure`), has an effect on it. For all objects, structures and values. -/
theorem C144_velocity_violated (env env' : DynEnv F M) (s s' : Dyn K F M) (r : List F)
    (h : s.getVelocityMass env = some (r, s')) : s'.getVelocityMass env' = some (r, s') := by
  unfold Dyn.getVelocityMass at h
  split at h
  · rename_i v hv
    simp only [Option.some.injEq, Prod.mk.injEq] at h
    obtain ⟨rfl, rfl⟩ := h
    unfold Dyn.getVelocityMass
    rw [hv]
  · simp only [Option.map_eq_some_iff, Prod.exists, Prod.mk.injEq] at h
    obtain ⟨v, s1, _, rfl, rfl⟩ := h
    rfl

/-- C144, violated part, `set_structure`: a structure set after the displacements (relative trajectory) have been
computed has no effect on them. -/
theorem C144_structure_violated (env env' : DynEnv F M) (s s' : Dyn K F M) (r : List F)
    (h : s.getRelative env = some (r, s')) : s'.getRelative env' = some (r, s') := by
  unfold Dyn.getRelative at h
  split at h
  · rename_i v hv
    simp only [Option.some.injEq, Prod.mk.injEq] at h
    obtain ⟨rfl, rfl⟩ := h
    unfold Dyn.getRelative
    rw [hv]
  · simp only [Option.map_eq_some_iff, Prod.exists, Prod.mk.injEq] at h
    obtain ⟨v, s1, _, rfl, rfl⟩ := h
    rfl

end Dynamics

/-- Witness: one atom moving at speed 2 with weight 1, then weight 3: the answer stays 2, a new object gives 6. -/
example : ∃ s1 : Dyn ℚ ℚ ℚ,
    ({ velocity := some [2, 2] } : Dyn ℚ ℚ ℚ).getVelocityMass envId = some ([2, 2], s1) ∧
    (s1.getVelocityMass (envId.withMasses (3 * ·))).map Prod.fst = some [2, 2] ∧
    (({ velocity := some [2, 2] } : Dyn ℚ ℚ ℚ).getVelocityMass (envId.withMasses (3 * ·))).map Prod.fst
      = some [6, 6] := by
  refine ⟨_, rfl, rfl, ?_⟩
  simp [Dyn.getVelocityMass, Dyn.getVelocity, DynEnv.withMasses]
  norm_num

/-- Witness for `C144_late_masses` and `C144_after_crop`: histories that return. -/
example : (∀ op ∈ [DynOp.trajectory, .relative, .crop (some 2)], op.NoMass) ∧
    (DynOp.run envId [.trajectory, .velocityMass, .crop (some 2)]
      ({ trajectory := some [0, 1, 3], velocity := some [1, 2, 2] } : Dyn ℚ ℚ ℚ)).map (·.velocity)
      = some (some [2, 2]) :=
  ⟨by simp [DynOp.NoMass], rfl⟩

section Structure

variable {K : Type*} {d : ℕ} [Field K] [LinearOrder K] [IsStrictOrderedRing K] [FloorRing K]

theorem represents_setMasses_setPrimitive {s : Structure K d} {cell P : Matrix (Fin d) (Fin d) K}
    {pos : List (Fin d → K)} {masses : List K} (h : Represents s cell P pos masses) (m : List K)
    (Q : Matrix (Fin d) (Fin d) K) : Represents ((s.setMasses m).setPrimitiveMatrix Q) cell Q pos m := by
  have h' := h.setPrimitiveMatrix Q
  exact ⟨h'.h_cell, rfl, h'.h_positions, h'.h_scaled, h'.h_matrix, h'.h_primCell, Or.inl rfl, Or.inl rfl, Or.inl rfl,
    h'.h_nCellAtoms⟩

/-- C144: after any history of calls on a structure, `get_masses` returns the masses just set, expanded to the
supercell asked for. -/
theorem C144_masses (cell : Matrix (Fin d) (Fin d) K) (pos : List (Fin d → K)) (masses m : List K)
    (hdet : cell.det ≠ 0) (hm : pos.length ≤ masses.length) (hm' : m.length = pos.length)
    (ops : List (StrOp K d)) (hops : ∀ op ∈ ops, op.Ok masses pos.length) (sc : List ℕ) :
    ∃ s, StrOp.run ops { cell := cell, positions := some pos, masses := masses } = some s ∧
      ((s.setMasses m).getMasses (some sc)).map Prod.fst = some (expandSupercell m sc) := by
  have h0 : Represents ({ cell := cell, positions := some pos, masses := masses } : Structure K d) cell 1 pos masses :=
    ⟨rfl, rfl, Or.inl rfl, Or.inl rfl, Or.inr ⟨rfl, rfl, rfl⟩, Or.inl rfl, Or.inl rfl, Or.inl rfl, Or.inl rfl,
      Or.inl rfl⟩
  obtain ⟨s, e, h, _⟩ := represents_run h0 hdet (by simp) hm ops hops
  refine ⟨s, e, ?_⟩
  have hn : ∃ s', (s.setMasses m).getNumberOfCellAtoms = some (pos.length, s') ∧ s'.masses = m := by
    unfold Structure.getNumberOfCellAtoms
    rcases h.h_nCellAtoms with hc | hc
    · rcases h.h_positions with hp | ⟨hp, hs⟩
      · simp [Structure.setMasses, hc, Structure.getPositions, hp, superOr_none_positions]
      · simp [Structure.setMasses, hc, Structure.getPositions, hp, hs, superOr_none_positions, rowsMul]
    · simp [Structure.setMasses, hc]
  obtain ⟨s', e', hms⟩ := hn
  have hlt : ¬ m.length < pos.length := by omega
  have htk : m.take pos.length = m := List.take_of_length_le (by omega)
  simp [Structure.getMasses, e', hms, hlt, htk, Structure.superOr]

/-- C144: after any history of calls, `set_masses` followed by `set_primitive_matrix` (which forgets the atom types)
gives a structure indistinguishable from a new one with the new masses: every later history succeeds and the atom types
and their numbers are those of the new masses. -/
theorem C144_types_refreshed (cell : Matrix (Fin d) (Fin d) K) (pos : List (Fin d → K)) (masses m : List K)
    (hdet : cell.det ≠ 0) (hm : pos.length ≤ masses.length) (hm' : pos.length ≤ m.length)
    (Q : Matrix (Fin d) (Fin d) K) (hQ : Q.det ≠ 0)
    (before after : List (StrOp K d)) (hb : ∀ op ∈ before, op.Ok masses pos.length)
    (ha : ∀ op ∈ after, op.Ok m pos.length) :
    ∃ s s', StrOp.run before { cell := cell, positions := some pos, masses := masses } = some s ∧
      StrOp.run after ((s.setMasses m).setPrimitiveMatrix Q) = some s' ∧
      let P := StrOp.lastP Q after
      (s'.getAtomTypeIndex none).map Prod.fst = some (specTypes cell P pos m) ∧
      s'.getNumberOfAtomTypes.map Prod.fst = some (specTypes cell P pos m).toFinset.card ∧
      s'.getNumberOfPrimitiveAtoms.map Prod.fst = some (specTypes cell P pos m).toFinset.card := by
  have h0 : Represents ({ cell := cell, positions := some pos, masses := masses } : Structure K d) cell 1 pos masses :=
    ⟨rfl, rfl, Or.inl rfl, Or.inl rfl, Or.inr ⟨rfl, rfl, rfl⟩, Or.inl rfl, Or.inl rfl, Or.inl rfl, Or.inl rfl,
      Or.inl rfl⟩
  obtain ⟨s, e, h, _⟩ := represents_run h0 hdet (by simp) hm before hb
  obtain ⟨s', e', h', hP'⟩ := represents_run (represents_setMasses_setPrimitive h m Q) hdet hQ hm' after ha
  refine ⟨s, s', e, e', ?_, ?_, ?_⟩
  · obtain ⟨_, e1, _⟩ := h'.getTypes_none hdet hP' hm'
    rw [e1]; rfl
  · obtain ⟨_, e1, _⟩ := h'.getNumberOfAtomTypes hdet hP' hm'
    rw [e1]; rfl
  · obtain ⟨_, e1, _⟩ := h'.getNumberOfPrimitiveAtoms hdet hP' hm'
    rw [e1]; rfl

theorem nCell_cached (s s' : Structure K d) (n : ℕ) (h : s.getNumberOfCellAtoms = some (n, s')) :
    s'.nCellAtoms = some n ∧ s'.typeIndex = s.typeIndex := by
  unfold Structure.getNumberOfCellAtoms at h
  split at h
  · rename_i k hk
    simp only [Option.some.injEq, Prod.mk.injEq] at h
    obtain ⟨rfl, rfl⟩ := h
    exact ⟨hk, rfl⟩
  · simp only [Option.bind_eq_bind, Option.bind_eq_some_iff, Prod.exists, Option.some.injEq, Prod.mk.injEq] at h
    obtain ⟨p, s1, e, rfl, rfl⟩ := h
    refine ⟨rfl, ?_⟩
    unfold Structure.getPositions at e
    split at e
    · simp only [Option.some.injEq, Prod.mk.injEq] at e
      obtain ⟨_, rfl⟩ := e
      rfl
    · rcases hs : s.scaled with _ | sp
      · rw [hs] at e; cases e
      · rw [hs] at e
        simp only [Option.some.injEq, Prod.mk.injEq] at e
        obtain ⟨_, rfl⟩ := e
        rfl

/-- C144, violated part: once the atom types have been asked for, masses set afterwards have no effect on them. For all
structures and all masses (one for each atom). -/
theorem C144_types_stale_violated (s s1 : Structure K d) (t : List ℕ) (m : List K)
    (h : s.getAtomTypeIndex none = some (t, s1)) (hm : t.length ≤ m.length) :
    ((s1.setMasses m).getAtomTypeIndex none).map Prod.fst = some t := by
  have key : ∃ (n : ℕ) (t0 : List ℕ), s1.nCellAtoms = some n ∧ s1.typeIndex = some t0 ∧ ¬ t0.length < n ∧
      t = t0.take n := by
    have tail : ∀ (s3 : Structure K d) (t0 : List ℕ), s3.typeIndex = some t0 →
        (s3.getNumberOfCellAtoms.bind fun x => if t0.length < x.1 then none
          else some (expandSupercell (t0.take x.1) (Structure.superOr d none), x.2)) = some (t, s1) →
        ∃ (n : ℕ) (t0 : List ℕ), s1.nCellAtoms = some n ∧ s1.typeIndex = some t0 ∧ ¬ t0.length < n ∧
          t = t0.take n := by
      intro s3 t0 ht e
      simp only [Option.bind_eq_some_iff, Prod.exists] at e
      obtain ⟨n, s4, e4, e⟩ := e
      obtain ⟨c1, c2⟩ := nCell_cached _ _ _ e4
      split at e
      · cases e
      · rename_i hl
        simp only [Option.some.injEq, Prod.mk.injEq] at e
        obtain ⟨rfl, rfl⟩ := e
        exact ⟨n, t0, c1, c2.trans ht, hl, by rw [superOr_none_expand]⟩
    unfold Structure.getAtomTypeIndex at h
    simp only [Option.bind_eq_bind] at h
    rw [Option.bind_eq_some_iff] at h
    obtain ⟨⟨ms, s2⟩, _, h⟩ := h
    rcases hti : s2.typeIndex with _ | k
    · simp only [hti, Option.bind_eq_some_iff] at h
      obtain ⟨a, _, a1, _, a2, _, a3, _, b, hb, h⟩ := h
      simp only [Option.some.injEq] at hb
      subst hb
      exact tail _ _ rfl (Option.bind_eq_some_iff.2 h)
    · simp only [hti] at h
      exact tail s2 k hti h
  obtain ⟨n, t0, hn, ht, hl, rfl⟩ := key
  have hmn : ¬ m.length < n := by
    rw [List.length_take] at hm; omega
  simp [Structure.getAtomTypeIndex, Structure.getMasses, Structure.getNumberOfCellAtoms, Structure.setMasses, hn, ht,
    hmn, hl, superOr_none_expand]

end Structure

/-- C144, violated part: two atoms half a cell apart with equal masses are of one type; after `set_masses([1, 2])` the
structure still answers one type, while a new structure with these masses has two. -/
theorem C144_types_example_violated : ∃ s s1 : Structure ℚ 3,
    s.getAtomTypeIndex none = some ([0, 0], s1) ∧
    ((s1.setMasses [1, 2]).getAtomTypeIndex none).map Prod.fst = some [0, 0] ∧
    ((s.setMasses [1, 2]).getAtomTypeIndex none).map Prod.fst = some [0, 1] := by
  have hpc : ((Matrix.diagonal ![2, 1, 1] : Matrix (Fin 3) (Fin 3) ℚ).transpose
      * Matrix.diagonal ![1 / 2, 1, 1]).transpose = 1 := by
    rw [Matrix.diagonal_transpose, Matrix.diagonal_mul_diagonal, Matrix.diagonal_transpose,
      ← Matrix.diagonal_one]
    congr 1
    funext i
    fin_cases i <;> norm_num
  have hd1 : (Matrix.diagonal ![2, 1, 1] : Matrix (Fin 3) (Fin 3) ℚ).det ≠ 0 := by
    simp [Matrix.det_diagonal, Fin.prod_univ_three]
  have hd2 : (Matrix.diagonal ![1 / 2, 1, 1] : Matrix (Fin 3) (Fin 3) ℚ).det ≠ 0 := by
    simp [Matrix.det_diagonal, Fin.prod_univ_three]
  have hsep : atomSeparation (1 : Matrix (Fin 3) (Fin 3) ℚ) ![0, 0, 0] ![1, 0, 0] = 0 := by
    apply atomSeparation_eq_zero _ (by simp)
    refine ⟨![1, 0, 0], ?_⟩
    rw [Matrix.vecMul_one]
    funext i
    fin_cases i <;> simp
  have lab : ∀ ms : List ℚ, typeLabels (sameAtoms (1 : Matrix (Fin 3) (Fin 3) ℚ)
      [![0, 0, 0], ![1, 0, 0]] ms) 2 = if ms[0]? = ms[1]? then [0, 0] else [0, 1] := by
    intro ms
    have h01 : sameAtoms (1 : Matrix (Fin 3) (Fin 3) ℚ) [![0, 0, 0], ![1, 0, 0]] ms 0 1
        = decide (ms[0]? = ms[1]?) := by
      simp only [sameAtoms, List.getD_cons_zero, List.getD_cons_succ, hsep]
      norm_num
    rw [typeLabels_congr _ (fun _ _ => decide (ms[0]? = ms[1]?)) 2]
    · by_cases h : ms[0]? = ms[1]?
      · rw [if_pos h]; simp only [h]; decide
      · rw [if_neg h]; simp only [h]; decide
    · intro i j hij hj
      have : i = 0 := by omega
      have : j = 1 := by omega
      subst_vars
      exact h01
  have hrep : ∀ ms : List ℚ, Represents (c07Witness.setMasses ms) (Matrix.diagonal ![2, 1, 1])
      (Matrix.diagonal ![1 / 2, 1, 1]) [![0, 0, 0], ![1, 0, 0]] ms := fun ms =>
    ⟨rfl, rfl, Or.inl rfl, Or.inl rfl, Or.inl rfl, Or.inl rfl, Or.inl rfl, Or.inl rfl,
      Or.inl rfl, Or.inl rfl⟩
  have hspec : ∀ a b : ℚ, specTypes (Matrix.diagonal ![2, 1, 1]) (Matrix.diagonal ![1 / 2, 1, 1])
      [![0, 0, 0], ![1, 0, 0]] [a, b] = if a = b then [0, 0] else [0, 1] := by
    intro a b
    obtain ⟨_, e, _⟩ := (hrep [a, b]).getTypes_fresh hd1 hd2 (by simp) none rfl
    obtain ⟨_, e', _⟩ := (hrep [a, b]).getTypes_none hd1 hd2 (by simp)
    rw [e, superOr_none_expand, superOr_none_expand, hpc] at e'
    simp only [List.length_cons, List.length_nil, lab, Option.some.injEq, Prod.mk.injEq] at e'
    rw [← e'.1]
    simp
  obtain ⟨s1, e1, r1⟩ := (hrep [1, 1]).getTypes_none hd1 hd2 (by simp)
  rw [hspec] at e1
  refine ⟨c07Witness.setMasses [1, 1], s1, by simpa using e1, ?_, ?_⟩
  · exact C144_types_stale_violated _ _ _ _ (by simpa using e1) (by simp)
  · obtain ⟨_, e2, _⟩ := (hrep [1, 2]).getTypes_none hd1 hd2 (by simp)
    have : (c07Witness.setMasses [1, 1]).setMasses [1, 2] = c07Witness.setMasses [1, 2] := rfl
    rw [this, e2, hspec]
    simp

end Verif
