import Verif.Model.Forces
import Mathlib.LinearAlgebra.Matrix.Determinant.Basic
import Mathlib.Tactic.Ring
import Mathlib.Tactic.NormNum
import Mathlib.Tactic.FieldSimp
import Mathlib.Tactic.Linarith

/-! # C90 (forces used by phonopy), C91 (normalisation to the unit cell) -/

set_option autoImplicit false
set_option linter.unusedSectionVars false

namespace Verif

variable {A D : Type}

/-- Specification: the forces `(array, supercell)` were given by the user in the history `h`, as force constants or as
force sets (then the array is what phonopy produces from them with *their* supercell). -/
def GivenForces (produce : D → SMat → A) (h : List (ForceOp A D)) (a : A) (S : SMat) : Prop :=
  (∃ x, ForceOp.setFC x ∈ h ∧ a = x.array ∧ S = x.supercell) ∨
  (∃ x, ForceOp.setFS x ∈ h ∧ a = produce x.data S ∧ S = x.supercell)

/-- Specification: the force set's number of atoms is that of the supercell it declares, by the rule of the code. -/
def FSets.Matches (x : FSets D) (natoms : ℤ) : Prop :=
  x.natom = (x.supercell 0 0 * x.supercell 1 1 * x.supercell 2 2) * natoms

theorem fs_getFS_eq (s : ForceState A D) (x : FSets D) (h : s.fs = some x) (hm : x.Matches s.natoms) : s.getFS = some (some x) := by
  unfold ForceState.getFS
  rw [h]
  simp only [FSets.Matches] at hm
  simp [hm]

theorem fs_phononFor_fc (produce : D → SMat → A) (s : ForceState A D) (x : FConst A) (h : s.fc = some x) :
    s.phononFor produce none = some (⟨x.supercell, some x.array⟩, s) := by
  simp [ForceState.phononFor, ForceState.getPhonon, ForceState.supercellPhonon, h]

theorem fs_phononFor_fs (produce : D → SMat → A) (s : ForceState A D) (x : FSets D) (h0 : s.fc = none) (h : s.fs = some x)
    (hm : x.Matches s.natoms) :
    s.phononFor produce none = some (⟨x.supercell, some (produce x.data x.supercell)⟩,
      s.setFC ⟨produce x.data x.supercell, x.supercell⟩) := by
  simp [ForceState.phononFor, ForceState.getPhonon, ForceState.supercellPhonon, h0, fs_getFS_eq s x h hm]

theorem fs_phononFor_fs_bad (produce : D → SMat → A) (s : ForceState A D) (x : FSets D) (h0 : s.fc = none) (h : s.fs = some x)
    (hm : ¬ x.Matches s.natoms) :
    s.phononFor produce none = none := by
  have : s.getFS = none := by
    unfold ForceState.getFS
    rw [h]
    simp only [FSets.Matches] at hm
    simp [hm]
  simp [ForceState.phononFor, ForceState.getPhonon, ForceState.supercellPhonon, h0, this]

theorem fs_phononFor_none (produce : D → SMat → A) (s : ForceState A D) (h0 : s.fc = none) (h : s.fs = none) :
    s.phononFor produce none = none := by
  simp [ForceState.phononFor, ForceState.getPhonon, ForceState.supercellPhonon, ForceState.getFS, h0, h]

/-- C90: with force constants as argument, phonopy gets exactly these, with their own supercell, whatever the structure holds, and the structure's forces are left alone. -/
theorem C90_given (produce : D → SMat → A) (s : ForceState A D) (x : FConst A) :
    s.phononFor produce (some x) = some (⟨x.supercell, some x.array⟩, s) := by
  simp [ForceState.phononFor, ForceState.getPhonon]

theorem fs_step_natoms (produce : D → SMat → A) (s : ForceState A D) (o : ForceOp A D) : (s.step produce o).natoms = s.natoms := by
  cases o with
  | setFC x => rfl
  | setFS x => rfl
  | phonon fc =>
    cases fc with
    | some x => simp [ForceState.step, C90_given]
    | none =>
      simp only [ForceState.step]
      cases h0 : s.fc with
      | some x => rw [fs_phononFor_fc produce s x h0]
      | none =>
        cases h1 : s.fs with
        | none => rw [fs_phononFor_none produce s h0 h1]
        | some x =>
          by_cases hm : x.Matches s.natoms
          · rw [fs_phononFor_fs produce s x h0 h1 hm]; rfl
          · rw [fs_phononFor_fs_bad produce s x h0 h1 hm]

theorem fs_run_natoms (produce : D → SMat → A) (n : ℤ) (h : List (ForceOp A D)) : (ForceState.run produce n h).natoms = n := by
  unfold ForceState.run
  suffices ∀ s : ForceState A D, (h.foldl (ForceState.step produce) s).natoms = s.natoms from this _
  induction h with
  | nil => intro s; rfl
  | cons o h ih => intro s; rw [List.foldl_cons, ih, fs_step_natoms]

/-- The invariant behind `C90_consistent`. -/
theorem fs_run_inv (produce : D → SMat → A) (n : ℤ) (h : List (ForceOp A D)) :
    (∀ x, (ForceState.run produce n h).fc = some x → GivenForces produce h x.array x.supercell) ∧
    (∀ x, (ForceState.run produce n h).fs = some x → ForceOp.setFS x ∈ h) := by
  induction h using List.reverseRecOn with
  | nil => simp [ForceState.run]
  | append_singleton h o ih =>
    have hrun : ForceState.run produce n (h ++ [o]) = (ForceState.run produce n h).step produce o := by
      simp [ForceState.run, List.foldl_append]
    have hmono : ∀ a S, GivenForces produce h a S → GivenForces produce (h ++ [o]) a S := by
      intro a S hg
      rcases hg with ⟨x, hx, h1⟩ | ⟨x, hx, h1⟩
      · exact Or.inl ⟨x, by simp [hx], h1⟩
      · exact Or.inr ⟨x, by simp [hx], h1⟩
    rw [hrun]
    set s := ForceState.run produce n h with hs
    cases o with
    | setFC y =>
      constructor
      · intro x hx
        simp only [ForceState.step, ForceState.setFC, Option.some.injEq] at hx
        exact Or.inl ⟨y, by simp, by simp [hx], by simp [hx]⟩
      · intro x hx
        have := ih.2 x hx
        simp [this]
    | setFS y =>
      constructor
      · intro x hx
        exact hmono _ _ (ih.1 x hx)
      · intro x hx
        simp only [ForceState.step, ForceState.setFS, Option.some.injEq] at hx
        simp [hx]
    | phonon fc =>
      have hsame : (∀ x, s.fc = some x → GivenForces produce (h ++ [ForceOp.phonon fc]) x.array x.supercell) ∧
          (∀ x, s.fs = some x → ForceOp.setFS x ∈ h ++ [ForceOp.phonon fc]) :=
        ⟨fun x hx => hmono _ _ (ih.1 x hx), fun x hx => by simp [ih.2 x hx]⟩
      cases fc with
      | some x => simpa [ForceState.step, C90_given] using hsame
      | none =>
        simp only [ForceState.step]
        cases h0 : s.fc with
        | some x => rw [fs_phononFor_fc produce s x h0]; exact hsame
        | none =>
          cases h1 : s.fs with
          | none => rw [fs_phononFor_none produce s h0 h1]; exact hsame
          | some x =>
            by_cases hm : x.Matches s.natoms
            · rw [fs_phononFor_fs produce s x h0 h1 hm]
              constructor
              · intro y hy
                simp only [ForceState.setFC, Option.some.injEq] at hy
                refine Or.inr ⟨x, ?_, ?_, ?_⟩
                · simp [ih.2 x h1]
                · rw [← hy]
                · rw [← hy]
              · exact hsame.2
            · rw [fs_phononFor_fs_bad produce s x h0 h1 hm]; exact hsame

/-- C90: after any history of `set_force_constants`, `set_force_set` and calculations, the phonopy object made for the structure has forces and a supercell that belong together and were given by the user: never the forces
of one set with the supercell of another. -/
theorem C90_consistent (produce : D → SMat → A) (n : ℤ) (h : List (ForceOp A D)) (p : PhononObj A) (s' : ForceState A D)
    (hp : (ForceState.run produce n h).phononFor produce none = some (p, s')) :
    ∃ a, p.forces = some a ∧ GivenForces produce h a p.supercell := by
  have hinv := fs_run_inv produce n h
  set s := ForceState.run produce n h with hs
  cases h0 : s.fc with
  | some x =>
    rw [fs_phononFor_fc produce s x h0] at hp
    simp only [Option.some.injEq, Prod.mk.injEq] at hp
    refine ⟨x.array, by rw [← hp.1], ?_⟩
    rw [← hp.1]
    exact hinv.1 x h0
  | none =>
    cases h1 : s.fs with
    | none => rw [fs_phononFor_none produce s h0 h1] at hp; simp at hp
    | some x =>
      by_cases hm : x.Matches s.natoms
      · rw [fs_phononFor_fs produce s x h0 h1 hm] at hp
        simp only [Option.some.injEq, Prod.mk.injEq] at hp
        refine ⟨produce x.data x.supercell, by rw [← hp.1], ?_⟩
        rw [← hp.1]
        exact Or.inr ⟨x, hinv.2 x h1, rfl, rfl⟩
      · rw [fs_phononFor_fs_bad produce s x h0 h1 hm] at hp; simp at hp

theorem fs_fc_kept (produce : D → SMat → A) (h2 : List (ForceOp A D)) (hno : ∀ y, ForceOp.setFC y ∉ h2) :
    ∀ (s : ForceState A D) (x : FConst A), s.fc = some x → (h2.foldl (ForceState.step produce) s).fc = some x := by
  induction h2 with
  | nil => intro s x h; exact h
  | cons o h ih =>
    intro s x hx
    rw [List.foldl_cons]
    refine ih (fun y hy => hno y (List.mem_cons_of_mem _ hy)) _ x ?_
    cases o with
    | setFC y => exact absurd List.mem_cons_self (hno y)
    | setFS y => exact hx
    | phonon fc =>
      cases fc with
      | some z => simpa [ForceState.step, C90_given] using hx
      | none => simp only [ForceState.step]; rw [fs_phononFor_fc produce s x hx]; exact hx

/-- C90: the force constants set last are the ones used, whatever was done before and whatever (except setting force constants) is done afterwards. -/
theorem C90_latest_constants (produce : D → SMat → A) (n : ℤ) (h1 h2 : List (ForceOp A D)) (x : FConst A)
    (hno : ∀ y, ForceOp.setFC y ∉ h2) :
    ∃ s', (ForceState.run produce n (h1 ++ [ForceOp.setFC x] ++ h2)).phononFor produce none =
      some (⟨x.supercell, some x.array⟩, s') := by
  have : (ForceState.run produce n (h1 ++ [ForceOp.setFC x] ++ h2)).fc = some x := by
    unfold ForceState.run
    rw [List.foldl_append, List.foldl_append]
    exact fs_fc_kept produce h2 hno _ x rfl
  exact ⟨_, fs_phononFor_fc produce _ x this⟩

/-- C90: force sets set before the first calculation are the ones used, as long as no force constants are set. -/
theorem C90_force_sets (produce : D → SMat → A) (n : ℤ) (h1 h2 : List (ForceOp A D)) (x : FSets D)
    (hm : x.Matches n)
    (h1c : ∀ y, ForceOp.setFC y ∉ h1) (h1p : ForceOp.phonon none ∉ h1)
    (h2c : ∀ y, ForceOp.setFC y ∉ h2) (h2s : ∀ y, ForceOp.setFS y ∉ h2) :
    ∃ s', (ForceState.run produce n (h1 ++ [ForceOp.setFS x] ++ h2)).phononFor produce none =
      some (⟨x.supercell, some (produce x.data x.supercell)⟩, s') := by
  have hfc0 : ∀ (h1 : List (ForceOp A D)), (∀ y, ForceOp.setFC y ∉ h1) → ForceOp.phonon none ∉ h1 →
      ∀ s : ForceState A D, s.fc = none → (h1.foldl (ForceState.step produce) s).fc = none := by
    intro h1
    induction h1 with
    | nil => intro _ _ s h; exact h
    | cons o h ih =>
      intro hc hp s hs
      rw [List.foldl_cons]
      refine ih (fun y hy => hc y (List.mem_cons_of_mem _ hy)) (fun hy => hp (List.mem_cons_of_mem _ hy)) _ ?_
      cases o with
      | setFC y => exact absurd List.mem_cons_self (hc y)
      | setFS y => exact hs
      | phonon fc =>
        cases fc with
        | some z => simpa [ForceState.step, C90_given] using hs
        | none => exact absurd List.mem_cons_self hp
  have hgen : ∀ (h2 : List (ForceOp A D)), (∀ y, ForceOp.setFC y ∉ h2) → (∀ y, ForceOp.setFS y ∉ h2) →
      ∀ s : ForceState A D, s.natoms = n → s.fs = some x →
      (s.fc = none ∨ s.fc = some ⟨produce x.data x.supercell, x.supercell⟩) →
      ∃ s', (h2.foldl (ForceState.step produce) s).phononFor produce none =
        some (⟨x.supercell, some (produce x.data x.supercell)⟩, s') := by
    intro h2
    induction h2 with
    | nil =>
      intro _ _ s hn hs hfc
      rcases hfc with h0 | h0
      · exact ⟨_, fs_phononFor_fs produce s x h0 hs (hn ▸ hm)⟩
      · exact ⟨_, fs_phononFor_fc produce s _ h0⟩
    | cons o h ih =>
      intro hc hsets s hn hs hfc
      rw [List.foldl_cons]
      have hc' : ∀ y, ForceOp.setFC y ∉ h := fun y hy => hc y (List.mem_cons_of_mem _ hy)
      have hs' : ∀ y, ForceOp.setFS y ∉ h := fun y hy => hsets y (List.mem_cons_of_mem _ hy)
      cases o with
      | setFC y => exact absurd List.mem_cons_self (hc y)
      | setFS y => exact absurd List.mem_cons_self (hsets y)
      | phonon fc =>
        cases fc with
        | some z => exact ih hc' hs' _ (by simpa [ForceState.step, C90_given] using hn) (by simpa [ForceState.step, C90_given] using hs) (by simpa [ForceState.step, C90_given] using hfc)
        | none =>
          rcases hfc with h0 | h0
          · refine ih hc' hs' _ ?_ ?_ ?_
            · rw [fs_step_natoms]; exact hn
            · simp only [ForceState.step]; rw [fs_phononFor_fs produce s x h0 hs (hn ▸ hm)]; exact hs
            · right; simp only [ForceState.step]; rw [fs_phononFor_fs produce s x h0 hs (hn ▸ hm)]; rfl
          · refine ih hc' hs' _ ?_ ?_ ?_
            · rw [fs_step_natoms]; exact hn
            · simp only [ForceState.step]; rw [fs_phononFor_fc produce s _ h0]; exact hs
            · right; simp only [ForceState.step]; rw [fs_phononFor_fc produce s _ h0]; exact h0
  unfold ForceState.run
  rw [List.foldl_append, List.foldl_append]
  refine hgen h2 h2c h2s _ ?_ rfl (Or.inl ?_)
  · have := fs_run_natoms produce n (h1 ++ [ForceOp.setFS x])
    simpa [ForceState.run, List.foldl_append] using this
  · exact hfc0 h1 h1c h1p _ rfl

/-- C90, the property fails: "the forces set last are the ones used". After a calculation with the force sets `x`, setting other
force sets `y` has no effect on any later calculation – for all `x` and `y`. -/
theorem C90_stale_violated (produce : D → SMat → A) (n : ℤ) (x y : FSets D) (hm : x.Matches n) :
    ∃ s', (ForceState.run produce n [.setFS x, .phonon none, .setFS y]).phononFor produce none =
      some (⟨x.supercell, some (produce x.data x.supercell)⟩, s') := by
  refine ⟨_, fs_phononFor_fc produce _ ⟨produce x.data x.supercell, x.supercell⟩ ?_⟩
  simp only [ForceState.run, List.foldl_cons, List.foldl_nil]
  have h1 : (({ natoms := n } : ForceState A D).step produce (.setFS x)).phononFor produce none = _ :=
    fs_phononFor_fs produce _ x rfl rfl hm
  simp only [ForceState.step] at h1 ⊢
  rw [h1]
  rfl

/-- C90: two different force sets with the same supercell, so that the previous theorem is a real loss of the second one. -/
theorem C90_latest_sets_false : ¬ ∀ (A D : Type) (produce : D → SMat → A) (n : ℤ) (h : List (ForceOp A D)) (y : FSets D), y.Matches n →
    ∃ s', (ForceState.run produce n (h ++ [.setFS y])).phononFor produce none =
      some (⟨y.supercell, some (produce y.data y.supercell)⟩, s') := by
  intro hall
  have hx : (⟨2, 0, 1⟩ : FSets ℕ).Matches 2 := by simp [FSets.Matches]
  have hy : (⟨2, 1, 1⟩ : FSets ℕ).Matches 2 := by simp [FSets.Matches]
  obtain ⟨s1, h1⟩ := C90_stale_violated (A := ℕ) (fun d _ => d) 2 ⟨2, 0, 1⟩ ⟨2, 1, 1⟩ hx
  obtain ⟨s2, h2⟩ := hall ℕ ℕ (fun d _ => d) 2 [.setFS ⟨2, 0, 1⟩, .phonon none] ⟨2, 1, 1⟩ hy
  simp only [List.cons_append, List.nil_append] at h2
  rw [h1] at h2
  simp at h2

/-- C90: without forces there is no phonopy object (the program ends). -/
theorem C90_no_forces (produce : D → SMat → A) (n : ℤ) (h : List (ForceOp A D)) (hc : ∀ y, ForceOp.setFC y ∉ h)
    (hs : ∀ y, ForceOp.setFS y ∉ h) : (ForceState.run produce n h).phononFor produce none = none := by
  have hinv := fs_run_inv produce n h
  refine fs_phononFor_none produce _ ?_ ?_
  · cases h0 : (ForceState.run produce n h).fc with
    | none => rfl
    | some x =>
      rcases hinv.1 x h0 with ⟨y, hy, _⟩ | ⟨y, hy, _⟩
      · exact absurd hy (hc y)
      · exact absurd hy (hs y)
  · cases h0 : (ForceState.run produce n h).fs with
    | none => rfl
    | some x => exact absurd (hinv.2 x h0) (hs x)

/-- C90: without forces `get_supercell_phonon` is the identity, and no forces are reported. -/
theorem C90_supercell_none (produce : D → SMat → A) (n : ℤ) (h : List (ForceOp A D)) (hc : ∀ y, ForceOp.setFC y ∉ h)
    (hs : ∀ y, ForceOp.setFS y ∉ h) : (ForceState.run produce n h).supercellPhonon = some 1 ∧ (ForceState.run produce n h).available = some false := by
  have hinv := fs_run_inv produce n h
  have h0 : (ForceState.run produce n h).fc = none := by
    cases h0 : (ForceState.run produce n h).fc with
    | none => rfl
    | some x =>
      rcases hinv.1 x h0 with ⟨y, hy, _⟩ | ⟨y, hy, _⟩
      · exact absurd hy (hc y)
      · exact absurd hy (hs y)
  have h1 : (ForceState.run produce n h).fs = none := by
    cases h1 : (ForceState.run produce n h).fs with
    | none => rfl
    | some x => exact absurd (hinv.2 x h1) (hs x)
  simp [ForceState.supercellPhonon, ForceState.available, ForceState.getFS, h0, h1]

/-- C90: repeating a calculation gives the same phonopy object, in every state (the stored force constants are those that were used). -/
theorem C90_repeat (produce : D → SMat → A) (s s' : ForceState A D) (p : PhononObj A)
    (hp : s.phononFor produce none = some (p, s')) : s'.phononFor produce none = some (p, s') := by
  cases h0 : s.fc with
  | some x =>
    rw [fs_phononFor_fc produce s x h0] at hp
    simp only [Option.some.injEq, Prod.mk.injEq] at hp
    rw [← hp.1, ← hp.2]
    exact fs_phononFor_fc produce s x h0
  | none =>
    cases h1 : s.fs with
    | none => rw [fs_phononFor_none produce s h0 h1] at hp; simp at hp
    | some x =>
      by_cases hm : x.Matches s.natoms
      · rw [fs_phononFor_fs produce s x h0 h1 hm] at hp
        simp only [Option.some.injEq, Prod.mk.injEq] at hp
        rw [← hp.1, ← hp.2]
        exact fs_phononFor_fc produce (s.setFC ⟨produce x.data x.supercell, x.supercell⟩) ⟨produce x.data x.supercell, x.supercell⟩ rfl
      · rw [fs_phononFor_fs_bad produce s x h0 h1 hm] at hp; simp at hp

/-- C90: `get_supercell_phonon` is the supercell of the phonopy object, and `forces_available` tells whether there is one. -/
theorem C90_supercell (produce : D → SMat → A) (s : ForceState A D) :
    (∀ p s', s.phononFor produce none = some (p, s') → s.supercellPhonon = some p.supercell ∧ s'.supercellPhonon = some p.supercell) ∧
    (s.available = some true ↔ (s.phononFor produce none).isSome) := by
  cases h0 : s.fc with
  | some x =>
    rw [fs_phononFor_fc produce s x h0]
    refine ⟨?_, ?_⟩
    · intro p s' h
      simp only [Option.some.injEq, Prod.mk.injEq] at h
      rw [← h.1, ← h.2]
      simp [ForceState.supercellPhonon, h0]
    · simp [ForceState.available, h0]
  | none =>
    cases h1 : s.fs with
    | none => rw [fs_phononFor_none produce s h0 h1]; simp [ForceState.available, h0, ForceState.getFS, h1]
    | some x =>
      by_cases hm : x.Matches s.natoms
      · rw [fs_phononFor_fs produce s x h0 h1 hm]
        have hg := fs_getFS_eq s x h1 hm
        refine ⟨?_, ?_⟩
        · intro p s' h
          simp only [Option.some.injEq, Prod.mk.injEq] at h
          rw [← h.1, ← h.2]
          simp [ForceState.supercellPhonon, h0, hg, ForceState.setFC]
        · simp [ForceState.available, h0, hg]
      · rw [fs_phononFor_fs_bad produce s x h0 h1 hm]
        have hg : s.getFS = none := by
          unfold ForceState.getFS
          rw [h1]
          simp only [FSets.Matches] at hm
          simp [hm]
        simp [ForceState.available, h0, hg]

/-- C90: the check of the force sets is right for triangular (in particular diagonal) supercell matrices: it passes exactly if the number of atoms of the file is that of the supercell, `det S` unit cells. -/
theorem C90_check (s : ForceState A D) (x : FSets D) (hs : s.fs = some x)
    (htri : (x.supercell 1 0 = 0 ∧ x.supercell 2 0 = 0 ∧ x.supercell 2 1 = 0) ∨
      (x.supercell 0 1 = 0 ∧ x.supercell 0 2 = 0 ∧ x.supercell 1 2 = 0)) :
    s.getFS = (if x.natom = x.supercell.det * s.natoms then some (some x) else none) := by
  have hdet : x.supercell.det = x.supercell 0 0 * x.supercell 1 1 * x.supercell 2 2 := by
    rw [Matrix.det_fin_three]
    rcases htri with ⟨h1, h2, h3⟩ | ⟨h1, h2, h3⟩ <;> simp [h1, h2, h3]
  unfold ForceState.getFS
  rw [hs, hdet]
  by_cases h : x.natom = x.supercell 0 0 * x.supercell 1 1 * x.supercell 2 2 * s.natoms <;> simp [h]

/-- C90, the property fails for other supercell matrices: correct force sets are refused, and wrong ones accepted. -/
theorem C90_check_false :
    (∃ (s : ForceState Unit Unit) (x : FSets Unit), s.fs = some x ∧ x.natom = x.supercell.det * s.natoms ∧ 0 < x.supercell.det ∧ s.getFS = none) ∧
    (∃ (s : ForceState Unit Unit) (x : FSets Unit), s.fs = some x ∧ x.natom ≠ x.supercell.det * s.natoms ∧ 0 < x.supercell.det ∧ s.getFS = some (some x)) := by
  constructor
  · refine ⟨{ natoms := 2, fs := some ⟨8, (), !![-1, 1, 1; 1, -1, 1; 1, 1, -1]⟩ }, _, rfl, ?_, ?_, ?_⟩
    · simp [Matrix.det_fin_three]
    · simp [Matrix.det_fin_three]
    · simp [ForceState.getFS]
  · refine ⟨{ natoms := 2, fs := some ⟨2, (), !![1, 1, 0; -1, 1, 0; 0, 0, 1]⟩ }, _, rfl, ?_, ?_, ?_⟩
    · simp [Matrix.det_fin_three]
    · simp [Matrix.det_fin_three]
    · simp [ForceState.getFS]

/-- C90: the thermal expansion shift: quasi-harmonic frequencies at `q` from the quasi-harmonic force constants with their supercell, minus the frequencies of the structure; the structure keeps its forces. -/
theorem C90_qha {K Q : Type} [Sub K] (produce : D → SMat → A) (freq : PhononObj A → Q → List K) (s : ForceState A D)
    (x : FConst A) (own : List K) (q : Q) :
    qhaShift produce freq s (some x) own q =
      some (some (List.zipWith (· - ·) (freq ⟨x.supercell, some x.array⟩ q) own), s) ∧
    qhaShift produce freq s none own q = some (none, s) := by
  simp [qhaShift, ForceState.getPhonon, ForceState.supercellPhonon, ForceState.setFC]

/-- non-trivial histories -/
example : ∃ s', (ForceState.run (A := ℕ) (D := ℕ) (fun d _ => d + 1) 2 [.setFS ⟨4, 7, !![2, 0, 0; 0, 1, 0; 0, 0, 1]⟩, .phonon (some ⟨5, 1⟩), .phonon none]).phononFor
    (fun d _ => d + 1) none = some (⟨!![2, 0, 0; 0, 1, 0; 0, 0, 1], some 8⟩, s') :=
  C90_force_sets (fun d _ => d + 1) 2 [] [.phonon (some ⟨5, 1⟩), .phonon none] ⟨4, 7, !![2, 0, 0; 0, 1, 0; 0, 0, 1]⟩
    (by simp [FSets.Matches]) (by simp) (by simp) (by simp) (by simp)

/-! ## C91 -/

section dos
variable {K : Type*} [Field K] [CharZero K]

theorem dos_sum (c : K) : ∀ (w v : List K), (List.zipWith (· * ·) w (v.map fun x => x * c)).sum = c * (List.zipWith (· * ·) w v).sum := by
  intro w
  induction w with
  | nil => intro v; simp
  | cons a w ih =>
    intro v
    cases v with
    | nil => simp
    | cons b v => simp only [List.map_cons, List.zipWith_cons_cons, List.sum_cons, ih]; ring

/-- C91: with any quadrature weights, a total DOS of phonopy that integrates to `3·nprim` (states per primitive cell)
becomes one that integrates to `3·natoms` (states per unit cell); the frequencies are unchanged. -/
theorem C91_total (natoms nprim : ℕ) (hp : nprim ≠ 0) (freqs total freqsP : List K) (projected : List (List K)) (onAtom : ℤ) (hneg : onAtom < 0)
    (w : List K) (hint : (List.zipWith (· * ·) w total).sum = 3 * (nprim : K)) :
    ∃ dos, phonopyDos natoms nprim freqs total freqsP projected onAtom = some (freqs, dos) ∧ dos.length = total.length ∧
      (List.zipWith (· * ·) w dos).sum = 3 * (natoms : K) := by
  refine ⟨total.map fun x => x * ((natoms : K) / (nprim : K)), by simp [phonopyDos, hneg], by simp, ?_⟩
  rw [dos_sum, hint]
  have : (nprim : K) ≠ 0 := by exact_mod_cast hp
  field_simp

/-- C91: projections: refused exactly from the number of primitive atoms on; otherwise the DOS of that atom times the
number of primitive cells in the unit cell. -/
theorem C91_projected (natoms nprim : ℕ) (freqs total freqsP : List K) (projected : List (List K)) (i : ℕ) :
    phonopyDos natoms nprim freqs total freqsP projected (i : ℤ) =
      (projected[i]?).map fun row => (freqsP, row.map fun x => x * ((natoms : K) / (nprim : K))) := by
  have hn : ¬ ((i : ℤ) < 0) := by omega
  by_cases h : i < projected.length
  · have h2 : ¬ projected.length ≤ i := by omega
    simp [phonopyDos, hn, h, h2, List.getD]
  · have h' : projected.length ≤ i := by omega
    simp [phonopyDos, hn, h']

/-- C91: if the projections of phonopy add up to its total at a frequency, so do the normalised ones. -/
theorem C91_projected_sum (natoms nprim : ℕ) (freqs total freqsP : List K) (projected : List (List K)) (k : ℕ) (hk : k < total.length)
    (hsum : (projected.map fun row => row.getD k 0).sum = total.getD k 0) :
    ∃ dos, phonopyDos natoms nprim freqs total freqsP projected (-1) = some (freqs, dos) ∧
      ((List.range projected.length).map fun (i : ℕ) =>
        (((phonopyDos natoms nprim freqs total freqsP projected (i : ℤ)).map fun r => r.2.getD k 0).getD 0)).sum = dos.getD k 0 := by
  refine ⟨total.map fun x => x * ((natoms : K) / (nprim : K)), by simp [phonopyDos], ?_⟩
  have hget : ∀ (l : List K), (l.map fun x => x * ((natoms : K) / (nprim : K))).getD k 0 = l.getD k 0 * ((natoms : K) / (nprim : K)) := by
    intro l
    by_cases h : k < l.length
    · simp [List.getD, h]
    · have h' : l.length ≤ k := by omega
      simp [List.getD, List.getElem?_eq_none h']
  rw [hget, ← hsum]
  have h1 : ((List.range projected.length).map fun (i : ℕ) =>
        (((phonopyDos natoms nprim freqs total freqsP projected (i : ℤ)).map fun r => r.2.getD k 0).getD 0)) =
      (projected.map fun row => row.getD k 0).map fun x => x * ((natoms : K) / (nprim : K)) := by
    apply List.ext_getElem
    · simp
    · intro i h1 h2
      have hi : i < projected.length := by simpa using h1
      simp only [List.getElem_map, List.getElem_range, C91_projected, List.getElem?_eq_getElem hi, Option.map_some, Option.getD_some]
      exact hget _
  rw [h1, List.sum_map_mul_right, List.map_id']

end dos

section thermal
variable {K : Type*} [Field K] [LinearOrder K] [IsStrictOrderedRing K] [FloorRing K]

/-- C91: the thermal properties are those of phonopy at the single temperature asked for, times the number of
primitive cells in the unit cell. -/
theorem C91_thermal (natoms nprim : ℕ) (props : K → K × K × K) (T : K) :
    phonopyThermal natoms nprim props T = ((props T).1 * ((natoms : K) / (nprim : K)), (props T).2.1 * ((natoms : K) / (nprim : K)), (props T).2.2 * ((natoms : K) / (nprim : K))) := by
  have htemps : phonopyTemps (1 : K) T T = [T] := by
    have h1 : (T + 1 / 2 - T) / 1 = (1 / 2 : K) := by ring
    have h2 : ⌈(1 / 2 : K)⌉ = 1 := by
      rw [Int.ceil_eq_iff]
      norm_num
    unfold phonopyTemps
    rw [h1, h2]
    simp
  unfold phonopyThermal
  rw [htemps]
  simp

/-- C91: the same crystal described with a unit cell `m` times larger (same primitive cell) has `m` times the thermal properties per unit cell. -/
theorem C91_extensive (natoms nprim m : ℕ) (props : K → K × K × K) (T : K) :
    phonopyThermal (m * natoms) nprim props T =
      ((m : K) * (phonopyThermal natoms nprim props T).1, (m : K) * (phonopyThermal natoms nprim props T).2.1, (m : K) * (phonopyThermal natoms nprim props T).2.2) := by
  rw [C91_thermal, C91_thermal]
  push_cast
  refine Prod.ext ?_ (Prod.ext ?_ ?_) <;> simp <;> ring

end thermal

/-- a cell of 8 atoms with 2 primitive atoms: 24 states -/
example : ∃ dos, phonopyDos (K := ℚ) 8 2 [0, 1, 2] [0, 6, 0] [] [] (-1) = some ([0, 1, 2], dos) ∧ dos.length = 3 ∧
    (List.zipWith (· * ·) [1/2, 1, 1/2] dos).sum = 3 * ((8 : ℕ) : ℚ) :=
  C91_total 8 2 (by norm_num) [0, 1, 2] [0, 6, 0] [] [] (-1) (by norm_num) [1/2, 1, 1/2] (by norm_num)

end Verif
