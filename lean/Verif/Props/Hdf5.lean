import Verif.Model.Hdf5
import Verif.Spec.Window
import Verif.Props.Averages

/-! # C52, C53 -/

set_option autoImplicit false

namespace Verif

section roundtrip
variable {F T V Q : Type*} (cell : Matrix (Fin 3) (Fin 3) ℝ)

/-- C52: loading a file written by `save_velocity_hdf5` gives back the trajectory, the velocity, the time stamps and the supercell, for every unit cell,
every supercell `diag(s)` of it and all data. -/
theorem C52_roundtrip (d : MdData F T) (hcell : ∀ i, ∃ j, cell i j ≠ 0) (s : Fin 3 → ℕ)
    (hs : d.supercell = Matrix.diagonal (fun i => (s i : ℝ)) * cell) :
    ∃ f : H5File F V T (Fin 3 → ℤ) Q, saveVelocity cell d true = some f ∧ loadHdf5 cell f true 1 none = d := by
  have h := C15_exact cell 1 (by simp) hcell s 0.01 (by norm_num)
  rw [mul_one, ← hs] at h
  refine ⟨_, by unfold saveVelocity; rw [h]; rfl, ?_⟩
  cases d with
  | mk t v ti sc =>
    simp only [loadHdf5] at hs ⊢
    subst hs
    simp only [if_true, MdData.mk.injEq, Int.cast_natCast, and_true, true_and, Nat.one_ne_zero, if_false, Nat.sub_self,
      List.drop_zero]
    constructor
    · cases t <;> simp [cutSlice]
    · cases v <;> simp [cutSlice]

/-- C52: with `save_trajectory=False` or `read_trajectory=False` the velocity, the time stamps and the supercell come back and there is no
trajectory. -/
theorem C52_velocity_only (d : MdData F T) (hcell : ∀ i, ∃ j, cell i j ≠ 0) (s : Fin 3 → ℕ)
    (hs : d.supercell = Matrix.diagonal (fun i => (s i : ℝ)) * cell) (b r : Bool) (hbr : (b && r) = false) :
    ∃ f : H5File F V T (Fin 3 → ℤ) Q, saveVelocity cell d b = some f ∧ loadHdf5 cell f r 1 none = { d with trajectory := none } := by
  have h := C15_exact cell 1 (by simp) hcell s 0.01 (by norm_num)
  rw [mul_one, ← hs] at h
  refine ⟨_, by unfold saveVelocity; rw [h]; rfl, ?_⟩
  cases d with
  | mk t v ti sc =>
    simp only [loadHdf5] at hs ⊢
    subst hs
    simp only [MdData.mk.injEq, Int.cast_natCast, and_true, Nat.one_ne_zero, if_false, Nat.sub_self, List.drop_zero]
    constructor
    · cases b <;> cases r <;> simp_all
    · cases v <;> simp [cutSlice]

/-- C52 (part): the reading window cuts trajectory and velocity as asked. Missing, and false: the time stamps (`C52_time_violated`). -/
theorem C52_window_partial (f : H5File F V T (Fin 3 → ℤ) Q) (i e : ℕ) (hi : 1 ≤ i) :
    (loadHdf5 cell f true i (some e)).trajectory = f.trajectory.map (window · i e) ∧
    (loadHdf5 cell f true i (some e)).velocity = f.velocity.map (window · i e) ∧
    (loadHdf5 cell f true i none).trajectory = f.trajectory.map (·.drop (i - 1)) ∧
    (loadHdf5 cell f true i none).velocity = f.velocity.map (·.drop (i - 1)) := by
  have hi' : i ≠ 0 := by omega
  refine ⟨?_, ?_, ?_, ?_⟩ <;>
    · simp only [loadHdf5, if_true]
      congr 1
      funext l
      simp [cutSlice, hi', window]

/-- C52: with `initial_cut=0` (the option `-r 0`) Python takes the index -1: of the frames of the file only the last one is read, or none when the window ends before it. -/
theorem C52_zero (f : H5File F V T (Fin 3 → ℤ) Q) (l : List F) (x : F) (e : ℕ) (hf : f.velocity = some (l ++ [x])) :
    (loadHdf5 cell f true 0 none).velocity = some [x] ∧
    (loadHdf5 cell f true 0 (some e)).velocity = some (if l.length < e then [x] else []) := by
  simp only [loadHdf5, hf, Option.map_some, cutSlice, if_true, List.length_append, List.length_singleton, Nat.add_sub_cancel]
  refine ⟨by simp, ?_⟩
  congr 1
  split
  · rw [List.take_of_length_le (by simp; omega)]; simp
  · rw [List.drop_eq_nil_iff]; simp; omega

example : (loadHdf5 (1 : Matrix (Fin 3) (Fin 3) ℝ) ({ velocity := some [1, 2, 3], time := [0, 1, 2], superCell := fun _ => 1 } : H5File ℕ ℕ ℕ (Fin 3 → ℤ) ℕ) true 0 none).velocity = some [3] :=
  (C52_zero _ { velocity := some [1, 2, 3], time := [0, 1, 2], superCell := fun _ => 1 } [1, 2] 3 0 rfl).1

/-- C52, violated: whatever the window, all time stamps of the file are returned; in particular they outnumber the frames for every window that leaves
out a frame. -/
theorem C52_time_violated (f : H5File F V T (Fin 3 → ℤ) Q) (i e : ℕ) (hi : 1 ≤ i) (l : List F) (hl : f.velocity = some l)
    (hlen : f.time.length = l.length) (hcut : 1 < i ∧ l ≠ [] ∨ e < l.length) :
    ∃ l', (loadHdf5 cell f true i (some e)).velocity = some l' ∧ l'.length < (loadHdf5 cell f true i (some e)).time.length := by
  refine ⟨window l i e, ?_, ?_⟩
  · rw [(C52_window_partial cell f i e hi).2.1, hl]; rfl
  · simp only [loadHdf5, hlen, window, List.length_drop, List.length_take]
    have : l ≠ [] → 0 < l.length := List.length_pos_of_ne_nil
    rcases hcut with ⟨h1, h2⟩ | h
    · have := this h2; omega
    · omega

/-- C52, violated: the orientation of the supercell is lost, for every rotation that changes it. -/
theorem C52_rotation_violated (d : MdData F T) (hcell : ∀ i, ∃ j, cell i j ≠ 0) (s : Fin 3 → ℕ) (R : Matrix (Fin 3) (Fin 3) ℝ) (hR : R * R.transpose = 1)
    (hs : d.supercell = Matrix.diagonal (fun i => (s i : ℝ)) * cell * R)
    (hne : Matrix.diagonal (fun i => (s i : ℝ)) * cell * R ≠ Matrix.diagonal (fun i => (s i : ℝ)) * cell) :
    ∃ f : H5File F V T (Fin 3 → ℤ) Q, saveVelocity cell d true = some f ∧
      (loadHdf5 cell f true 1 none).supercell = Matrix.diagonal (fun i => (s i : ℝ)) * cell ∧ (loadHdf5 cell f true 1 none).supercell ≠ d.supercell := by
  have h := C15_exact cell R hR hcell s 0.01 (by norm_num)
  rw [← hs] at h
  refine ⟨_, by unfold saveVelocity; rw [h]; rfl, ?_, ?_⟩
  · simp [loadHdf5]
  · rw [hs]
    simpa [loadHdf5] using hne.symm

end roundtrip

/-- The hypotheses of the round trip are met: cubic cell, 2x1x3 supercell, two frames. -/
example : ∃ f : H5File ℤ Unit ℤ (Fin 3 → ℤ) Unit,
    saveVelocity (1 : Matrix (Fin 3) (Fin 3) ℝ)
      ⟨some [7, 8], some [1, 2], [0, 1], Matrix.diagonal (fun i => ((![2, 1, 3] : Fin 3 → ℕ) i : ℝ)) * 1⟩ true = some f ∧
    loadHdf5 1 f true 1 none = ⟨some [7, 8], some [1, 2], [0, 1], Matrix.diagonal (fun i => ((![2, 1, 3] : Fin 3 → ℕ) i : ℝ)) * 1⟩ :=
  C52_roundtrip 1 _ (fun i => ⟨i, by simp⟩) ![2, 1, 3] rfl

/-- A rotation that changes the supercell exists: a quarter turn. -/
example : (!![0, 1, 0; -1, 0, 0; 0, 0, 1] : Matrix (Fin 3) (Fin 3) ℝ) * (!![0, 1, 0; -1, 0, 0; 0, 0, 1] : Matrix (Fin 3) (Fin 3) ℝ).transpose = 1 ∧
    Matrix.diagonal (fun i => ((![2, 1, 3] : Fin 3 → ℕ) i : ℝ)) * 1 * (!![0, 1, 0; -1, 0, 0; 0, 0, 1] : Matrix (Fin 3) (Fin 3) ℝ) ≠
      Matrix.diagonal (fun i => ((![2, 1, 3] : Fin 3 → ℕ) i : ℝ)) * 1 := by
  constructor
  · ext i j; fin_cases i <;> fin_cases j <;> simp [Matrix.mul_apply, Fin.sum_univ_three]
  · intro h
    have := congrFun (congrFun h 0) 0
    simp [Matrix.diagonal_mul] at this

/-! ## C53 -/

section concat
variable {F V T S Q : Type*}

theorem concatNew_spec {α : Type*} {first : ℕ} {acc new r' : Option (List α)} (h : concatNew first acc new = some r') :
    (∀ l, acc = some l → ∃ b, new = some b ∧ r' = some (l ++ b.drop first)) ∧ (acc = none → r' = none) := by
  unfold concatNew at h
  cases acc with
  | none => simp at h; exact ⟨by simp, fun _ => h.symm⟩
  | some a => cases new with
    | none => simp at h
    | some b => simp at h; exact ⟨fun l hl => by cases hl; exact ⟨b, rfl, h.symm⟩, by simp⟩

theorem concatNew_isSome {α : Type*} (first : ℕ) (a n : Option (List α)) (han : a.isSome → n.isSome) :
    ∃ r, concatNew first a n = some r ∧ (r.isSome → a.isSome) := by
  cases a with
  | none => exact ⟨none, rfl, by simp⟩
  | some a => cases n with
    | none => simp at han
    | some n => exact ⟨_, rfl, by simp⟩

theorem map_some_inj {α : Type*} {a b : List α} (h : a.map some = b.map some) : a = b :=
  List.map_injective_iff.2 (Option.some_injective _) h

theorem concatStep_some {first : ℕ} {acc new r : H5File F V T S Q} (h : concatStep first acc new = some r) :
    concatNew first acc.trajectory new.trajectory = some r.trajectory ∧ concatNew first acc.velocity new.velocity = some r.velocity ∧
    concatNew first acc.vc new.vc = some r.vc ∧ r.time = acc.time ∧ r.superCell = acc.superCell ∧ r.reducedQ = acc.reducedQ := by
  unfold concatStep at h
  cases h1 : concatNew first acc.trajectory new.trajectory with
  | none => simp [h1] at h
  | some t =>
    cases h2 : concatNew first acc.velocity new.velocity with
    | none => simp [h1, h2] at h
    | some v =>
      cases h3 : concatNew first acc.vc new.vc with
      | none => simp [h1, h2, h3] at h
      | some vc =>
        simp only [h1, h2, h3, Option.some.injEq] at h
        subst h
        exact ⟨rfl, rfl, rfl, rfl, rfl, rfl⟩

/-- What the loop gives if it does not fail. -/
theorem concat_fold (first : ℕ) : ∀ (files : List (H5File F V T S Q)) (acc r : H5File F V T S Q), files.foldlM (concatStep first) acc = some r →
    r.time = acc.time ∧ r.superCell = acc.superCell ∧ r.reducedQ = acc.reducedQ ∧
    (∀ l, acc.velocity = some l → ∃ ls : List (List F), files.map (·.velocity) = ls.map some ∧ r.velocity = some (l ++ (ls.map (·.drop first)).flatten)) ∧
    (∀ l, acc.trajectory = some l → ∃ ls : List (List F), files.map (·.trajectory) = ls.map some ∧ r.trajectory = some (l ++ (ls.map (·.drop first)).flatten)) ∧
    (∀ l, acc.vc = some l → ∃ ls : List (List V), files.map (·.vc) = ls.map some ∧ r.vc = some (l ++ (ls.map (·.drop first)).flatten)) ∧
    (acc.velocity = none → r.velocity = none) ∧ (acc.trajectory = none → r.trajectory = none) ∧ (acc.vc = none → r.vc = none) := by
  intro files
  induction files with
  | nil =>
    intro acc r h
    simp only [List.foldlM_nil, Option.pure_def, Option.some.injEq] at h
    subst h
    exact ⟨rfl, rfl, rfl, fun l hl => ⟨[], by simp, by simp [hl]⟩, fun l hl => ⟨[], by simp, by simp [hl]⟩, fun l hl => ⟨[], by simp, by simp [hl]⟩,
      id, id, id⟩
  | cons f fs ih =>
    intro acc r h
    rw [List.foldlM_cons] at h
    cases hs : concatStep first acc f with
    | none => rw [hs] at h; simp at h
    | some m =>
      rw [hs] at h
      simp only [Option.bind_eq_bind, Option.bind_some] at h
      obtain ⟨s1, s2, s3, s4, s5, s6⟩ := concatStep_some hs
      obtain ⟨i1, i2, i3, i4, i5, i6, i7, i8, i9⟩ := ih m r h
      refine ⟨i1.trans s4, i2.trans s5, i3.trans s6, ?_, ?_, ?_, ?_, ?_, ?_⟩
      · intro l hl
        obtain ⟨b, hb, hm⟩ := (concatNew_spec s2).1 l hl
        obtain ⟨ls, h1, h2⟩ := i4 _ hm
        exact ⟨b :: ls, by simp [hb, h1], by rw [h2]; simp⟩
      · intro l hl
        obtain ⟨b, hb, hm⟩ := (concatNew_spec s1).1 l hl
        obtain ⟨ls, h1, h2⟩ := i5 _ hm
        exact ⟨b :: ls, by simp [hb, h1], by rw [h2]; simp⟩
      · intro l hl
        obtain ⟨b, hb, hm⟩ := (concatNew_spec s3).1 l hl
        obtain ⟨ls, h1, h2⟩ := i6 _ hm
        exact ⟨b :: ls, by simp [hb, h1], by rw [h2]; simp⟩
      · exact fun hn => i7 ((concatNew_spec s2).2 hn)
      · exact fun hn => i8 ((concatNew_spec s1).2 hn)
      · exact fun hn => i9 ((concatNew_spec s3).2 hn)

/-- C53 (part): if `concath5` writes a file, its velocity is the concatenation of the velocities of all files, each without its first `N` steps, in the
order of the files; without `--velocity_only` the same holds for the trajectory and the projected velocity. Missing, and false: the time stamps
(`C53_time_violated`). -/
theorem C53_concat_partial (N : ℕ) (vo : Bool) (file : H5File F V T S Q) (files : List (H5File F V T S Q)) (r : H5File F V T S Q)
    (h : concath5 N vo file files = some r) :
    (∀ ls : List (List F), (file :: files).map (·.velocity) = ls.map some → r.velocity = some ((ls.map (·.drop N)).flatten)) ∧
    (vo = false → ∀ ls : List (List F), (file :: files).map (·.trajectory) = ls.map some → r.trajectory = some ((ls.map (·.drop N)).flatten)) ∧
    (vo = false → ∀ ls : List (List V), (file :: files).map (·.vc) = ls.map some → r.vc = some ((ls.map (·.drop N)).flatten)) ∧
    (vo = true → r.trajectory = none ∧ r.vc = none) := by
  obtain ⟨-, -, -, h4, h5, h6, -, h8, h9⟩ := concat_fold N files _ r h
  refine ⟨?_, ?_, ?_, ?_⟩
  · intro ls hls
    cases ls with
    | nil => simp at hls
    | cons l ls =>
      simp only [List.map_cons, List.cons.injEq] at hls
      obtain ⟨ls', h1, h2⟩ := h4 (l.drop N) (by simp [hls.1])
      have : ls' = ls := map_some_inj (h1.symm.trans hls.2)
      rw [h2, this]; simp
  · intro hvo ls hls
    cases ls with
    | nil => simp at hls
    | cons l ls =>
      simp only [List.map_cons, List.cons.injEq] at hls
      obtain ⟨ls', h1, h2⟩ := h5 (l.drop N) (by simp [hls.1, hvo])
      have : ls' = ls := map_some_inj (h1.symm.trans hls.2)
      rw [h2, this]; simp
  · intro hvo ls hls
    cases ls with
    | nil => simp at hls
    | cons l ls =>
      simp only [List.map_cons, List.cons.injEq] at hls
      obtain ⟨ls', h1, h2⟩ := h6 (l.drop N) (by simp [hls.1, hvo])
      have : ls' = ls := map_some_inj (h1.symm.trans hls.2)
      rw [h2, this]; simp
  · intro hvo
    exact ⟨h8 (by simp [hvo]), h9 (by simp [hvo])⟩

/-- C53: when `concath5` succeeds: every file has every dataset that the first file has (and that is kept). -/
theorem C53_success (N : ℕ) (vo : Bool) (file : H5File F V T S Q) (files : List (H5File F V T S Q))
    (hv : file.velocity.isSome → ∀ f ∈ files, f.velocity.isSome)
    (ht : vo = false → file.trajectory.isSome → ∀ f ∈ files, f.trajectory.isSome)
    (hc : vo = false → file.vc.isSome → ∀ f ∈ files, f.vc.isSome) : (concath5 N vo file files).isSome := by
  unfold concath5
  dsimp only
  have key : ∀ (files : List (H5File F V T S Q)) (acc : H5File F V T S Q), (acc.velocity.isSome → ∀ f ∈ files, f.velocity.isSome) →
      (acc.trajectory.isSome → ∀ f ∈ files, f.trajectory.isSome) → (acc.vc.isSome → ∀ f ∈ files, f.vc.isSome) →
      (files.foldlM (concatStep N) acc).isSome := by
    intro files
    induction files with
    | nil => intro acc _ _ _; simp
    | cons f fs ih =>
      intro acc h1 h2 h3
      obtain ⟨v, hv, hv'⟩ := concatNew_isSome N acc.velocity f.velocity (fun h => h1 h f (by simp))
      obtain ⟨t, ht, ht'⟩ := concatNew_isSome N acc.trajectory f.trajectory (fun h => h2 h f (by simp))
      obtain ⟨c, hc, hc'⟩ := concatNew_isSome N acc.vc f.vc (fun h => h3 h f (by simp))
      rw [List.foldlM_cons]
      simp only [concatStep, ht, hv, hc, Option.bind_eq_bind, Option.bind_some]
      exact ih _ (fun h g hg => h1 (hv' h) g (by simp [hg])) (fun h g hg => h2 (ht' h) g (by simp [hg])) (fun h g hg => h3 (hc' h) g (by simp [hg]))
  refine key files _ ?_ ?_ ?_
  · simpa using hv
  · cases vo
    · simpa using ht rfl
    · simp
  · cases vo
    · simpa using hc rfl
    · simp

/-- C53, violated: the time stamps written are those of the first file, uncut, whatever the other files are and however many steps are
skipped. -/
theorem C53_time_violated (N : ℕ) (vo : Bool) (file : H5File F V T S Q) (files : List (H5File F V T S Q)) (r : H5File F V T S Q)
    (h : concath5 N vo file files = some r) : r.time = file.time :=
  (concat_fold N files _ r h).1

end concat

/-- Two files of two steps: four frames, two time stamps. -/
theorem C53_example_violated :
    (concath5 0 false ({ velocity := some [1, 2], time := [0, 1], superCell := () } : H5File ℕ Unit ℕ Unit Unit)
      [{ velocity := some [3, 4], time := [0, 1], superCell := () }]).map (fun r => (r.velocity, r.time)) = some (some [1, 2, 3, 4], [0, 1]) := by
  rfl

end Verif
