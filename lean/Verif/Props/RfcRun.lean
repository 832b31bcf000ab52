import Verif.Model.RfcRun
import Verif.Props.Outputs

/-! # C135: the script rfc_calc -/

set_option autoImplicit false

namespace Verif

variable {K A D E : Type}

/-- The number of atoms of the supercell of a force sets file fits (atoms.py:189). -/
def ForceSetsFit (natom : ℤ) (S : SMat) (atoms : ℤ) : Prop := natom = (S 0 0 * S 1 1 * S 2 2) * atoms

/-- Specification: the force constants the input file gives: those of the force constants file, else those phonopy produces from force sets that fit. -/
def RfcGiven (w : RfcWorld K A D E) (inp : RfcInput K A D) (n : ℤ) (S : SMat) (arr : A) : Prop :=
  inp.supercell = some S ∧
    (inp.forceConstants = some arr ∨
      inp.forceConstants = none ∧ ∃ natom d, inp.forceSets = some (natom, d) ∧ ForceSetsFit natom S n ∧ arr = w.produce d S)

private theorem frequencies_dict [DecidableEq K] (points : List (List K)) (key : List K → String) (freq : List K → List K) (file : List (List K))
    (hperm : file.Perm points) (hnd : points.Nodup) :
    rfcFrequencies points (.dict (file.map fun q => (key q, q, freq q))) = some (points.map freq) := by
  unfold rfcFrequencies
  simp only [Option.some.injEq]
  have hone : ∀ wv ∈ points, ((file.map fun q => (key q, q, freq q)).filter fun r => decide (r.2.1 = wv)).map (fun r => r.2.2) = [freq wv] := by
    intro wv hwv
    rw [List.filter_map, List.map_map]
    have hf : file.filter ((fun r : String × List K × List K => decide (r.2.1 = wv)) ∘ fun q => (key q, q, freq q)) = [wv] := by
      have hnd' : file.Nodup := hperm.nodup_iff.2 hnd
      have : (fun r : String × List K × List K => decide (r.2.1 = wv)) ∘ (fun q => (key q, q, freq q)) = fun q => q == wv := by
        funext q
        simp [Function.comp, beq_eq_decide]
      rw [this, List.filter_beq, List.count_eq_one_of_mem hnd' (hperm.mem_iff.2 hwv)]
      rfl
    rw [hf]; rfl
  rw [List.flatMap_def, List.map_congr_left hone]
  have hfl : ∀ l : List (List K), (l.map fun a => [freq a]).flatten = l.map freq := by
    intro l
    induction l with
    | nil => rfl
    | cons a l ih => simp only [List.map_cons, List.flatten_cons, ih, List.singleton_append]
  exact hfl points

/-- A structure whose phonopy object is `⟨S, arr⟩`, now and after any number of calculations. -/
private def Settled (w : RfcWorld K A D E) (S : SMat) (arr : A) (s : ForceState A D) : Prop :=
  s.supercellPhonon = some S ∧ ∃ s', s.getPhonon w.produce true none = some (⟨S, some arr⟩, s') ∧ s'.fc = some ⟨arr, S⟩

private theorem settled_fc (w : RfcWorld K A D E) (S : SMat) (arr : A) (s : ForceState A D) (h : s.fc = some ⟨arr, S⟩) : Settled w S arr s := by
  refine ⟨by simp [ForceState.supercellPhonon, h], s, ?_, h⟩
  simp [ForceState.getPhonon, ForceState.supercellPhonon, h]

private theorem settled_given (w : RfcWorld K A D E) (inp : RfcInput K A D) (n : ℤ) (S : SMat) (arr : A) (h : RfcGiven w inp n S arr) :
    ∃ s, rfcForces inp { natoms := n } = some s ∧ Settled w S arr s := by
  obtain ⟨hS, h | ⟨hfc, natom, d, hfs, hfit, rfl⟩⟩ := h
  · cases hfs : inp.forceSets with
    | none =>
      refine ⟨({ natoms := n } : ForceState A D).setFC ⟨arr, S⟩, ?_, settled_fc w S arr _ rfl⟩
      unfold rfcForces
      rw [hS, h, hfs]; rfl
    | some f =>
      refine ⟨(({ natoms := n } : ForceState A D).setFS ⟨f.1, f.2, S⟩).setFC ⟨arr, S⟩, ?_, settled_fc w S arr _ rfl⟩
      unfold rfcForces
      rw [hS, h, hfs]; rfl
  · have hfit' : ¬ natom ≠ (S 0 0 * S 1 1 * S 2 2) * n := not_not.2 hfit
    refine ⟨({ natoms := n } : ForceState A D).setFS ⟨natom, d, S⟩, ?_, ?_, ?_⟩
    · unfold rfcForces
      rw [hS, hfc, hfs]; rfl
    · simp [ForceState.supercellPhonon, ForceState.getFS, ForceState.setFS, hfit']
    · refine ⟨(({ natoms := n } : ForceState A D).setFS ⟨natom, d, S⟩).setFC ⟨w.produce d S, S⟩, ?_, rfl⟩
      simp [ForceState.getPhonon, ForceState.supercellPhonon, ForceState.getFS, ForceState.setFS, hfit']

private theorem settled_eigenvectors (w : RfcWorld K A D E) (S : SMat) (arr : A) : ∀ (qs : List (List K)) (s : ForceState A D), Settled w S arr s →
    ∃ s', rfcEigenvectors w qs s = some (qs.map fun q => w.eig ⟨S, some arr⟩ q, s') ∧ Settled w S arr s'
  | [], s, h => ⟨s, rfl, h⟩
  | q :: qs, s, h => by
    obtain ⟨_, s₁, h1, hfc⟩ := h
    obtain ⟨s₂, h2, h3⟩ := settled_eigenvectors w S arr qs s₁ (settled_fc w S arr s₁ hfc)
    refine ⟨s₂, ?_, h3⟩
    simp [rfcEigenvectors, h1, h2]

private theorem settled_constants [DecidableEq K] (w : RfcWorld K A D E) (inp : RfcInput K A D) (a : RfcArgs K) (n : ℤ) (S : SMat) (arr : A)
    (hg : RfcGiven w inp n S arr) (fr : List (List K)) (hfr : rfcFrequencies (w.points S) a.doc = some fr) :
    ∃ s, Settled w S arr s ∧ rfcConstants w inp a { natoms := n }
      = (w.renorm fr ((w.points S).map fun q => w.eig ⟨S, some arr⟩ q) S a.symmetrize).map fun x => (⟨x, S⟩, s) := by
  obtain ⟨s, hs, hset⟩ := settled_given w inp n S arr hg
  obtain ⟨s', he, hset'⟩ := settled_eigenvectors w S arr (w.points S) s hset
  refine ⟨s', hset', ?_⟩
  have hsc : rfcSupercell inp a.dim s = some S := by
    unfold rfcSupercell
    rw [hset.1]
    cases a.dim with
    | none => simp [hg.1]
    | some d => simp
  unfold rfcConstants
  simp only [hs, hsc, hfr, he, Option.bind_eq_bind, Option.bind_some]
  cases w.renorm fr ((w.points S).map fun q => w.eig ⟨S, some arr⟩ q) S a.symmetrize <;> rfl

private theorem settled_plot (w : RfcWorld K A D E) (inp : RfcInput K A D) (hb : inp.bands = none) (S : SMat) (arr : A) (s : ForceState A D)
    (h : Settled w S arr s) (fc : FConst A) : rfcPlot w inp fc s = some (.bands w.seek ⟨S, some arr⟩ ⟨fc.supercell, some fc.array⟩) := by
  obtain ⟨_, s', h1, _⟩ := h
  unfold rfcPlot
  rw [hb]
  simp only [ForceState.phononFor, h1, RangesArg.segments, Option.bind_eq_bind, Option.bind_some]
  simp [ForceState.getPhonon]

/-- C135: `-cp` prints the commensurate points of the supercell of `--dim`, else of the supercell of the input file, else of the unit cell, and nothing
else; neither forces nor frequencies are needed. -/
theorem C135_points [DecidableEq K] (w : RfcWorld K A D E) (inp : RfcInput K A D) (a : RfcArgs K) (hcp : a.cp = true) (hs : inp.atoms.isSome) :
    rfcRun w inp a = ⟨[.points (w.points (match a.dim, inp.supercell with
      | some d, _ => fun i j => if i = j then d i else 0
      | none, some S => S
      | none, none => 1))], false⟩ := by
  obtain ⟨n, hn⟩ := Option.isSome_iff_exists.1 hs
  unfold rfcRun rfcPoints
  rw [hn]
  simp only [hcp, if_true]
  cases a.dim <;> cases inp.supercell <;> rfl

/-- C135 (part: the file of frequencies as the script expects it, C95): the force constants saved are those phonopy makes from the frequencies the file
holds for each commensurate point of the phonon supercell of the input file, in the order of the points and with the eigenvectors of the force constants (or
force sets) of the input file at the same points; `--fcsymm` symmetrizes them. `-p` draws the bands of both along the automatic path. -/
theorem C135_saved_partial [DecidableEq K] (w : RfcWorld K A D E) (inp : RfcInput K A D) (a : RfcArgs K) (n : ℤ) (S : SMat) (arr new : A)
    (hcp : a.cp = false) (hn : inp.atoms = some n) (hg : RfcGiven w inp n S arr) (key : List K → String) (freq : List K → List K)
    (file : List (List K)) (hperm : file.Perm (w.points S)) (hnd : (w.points S).Nodup) (hdoc : a.doc = .dict (file.map fun q => (key q, q, freq q)))
    (hnew : w.renorm ((w.points S).map freq) ((w.points S).map fun q => w.eig ⟨S, some arr⟩ q) S a.symmetrize = some new)
    (hb : inp.bands = none) :
    rfcRun w inp a = ⟨(a.save.toList.map fun name => .file name new) ++
      (if a.plot then [.bands w.seek ⟨S, some arr⟩ ⟨S, some new⟩] else []), false⟩ := by
  obtain ⟨s, hset, hc⟩ := settled_constants w inp a n S arr hg _ (by rw [hdoc]; exact frequencies_dict _ key freq file hperm hnd)
  rw [hnew] at hc
  unfold rfcRun
  simp only [hn, hcp, hc, Bool.false_eq_true, if_false, Option.map_some]
  rw [settled_plot w inp hb S arr s hset ⟨new, S⟩]
  cases a.save <;> cases a.plot <;> rfl

/-- C135 fails: with `BANDS` in the input file `-p` ends with an exception for all ranges and labels, and nothing is drawn; the force constants have been
saved by then, as in the run without `-p`. -/
theorem C135_bands_violated [DecidableEq K] (w : RfcWorld K A D E) (inp : RfcInput K A D) (a : RfcArgs K) (hcp : a.cp = false) (hp : a.plot = true)
    (hb : inp.bands.isSome) :
    (rfcRun w inp a).failed = true ∧ (rfcRun w inp a).out = (rfcRun w inp { a with plot := false }).out ∧
      ∀ o ∈ (rfcRun w inp a).out, ∃ name x, o = .file name x ∧ a.save = some name := by
  obtain ⟨b, hb⟩ := Option.isSome_iff_exists.1 hb
  have hplot : ∀ fc s, rfcPlot w inp fc s = none := by
    intro fc s
    unfold rfcPlot
    have hseg : (RangesArg.dict b.1 b.2).segments = none := by
      unfold RangesArg.segments
      cases b.2 <;> (simp only [Option.bind_eq_none_iff]; intros; trivial)
    rw [hb]
    simp only [hseg]
    cases s.phononFor w.produce none <;> rfl
  obtain ⟨cp, doc, save, plot, sym, dim⟩ := a
  subst hcp
  subst hp
  unfold rfcRun
  cases inp.atoms with
  | none => simp
  | some n =>
    have hc : rfcConstants w inp { cp := false, doc := doc, save := save, plot := false, symmetrize := sym, dim := dim } { natoms := n } =
        rfcConstants w inp { cp := false, doc := doc, save := save, plot := true, symmetrize := sym, dim := dim } { natoms := n } := rfl
    simp only [Bool.false_eq_true, if_false, if_true, hc]
    cases rfcConstants w inp { cp := false, doc := doc, save := save, plot := true, symmetrize := sym, dim := dim } { natoms := n } with
    | none => simp
    | some r =>
      simp only [hplot]
      cases save <;> simp

/-- C135 fails: without `-cp`, `--dim` changes nothing, whatever its numbers are: the renormalized force constants are for the supercell of the input file,
and where that is not given the script fails as well. -/
theorem C135_dim_violated [DecidableEq K] (w : RfcWorld K A D E) (inp : RfcInput K A D) (a : RfcArgs K) (hcp : a.cp = false) (d : Option (Fin 3 → ℤ))
    (hne : ∀ S, w.points S ≠ []) : rfcRun w inp { a with dim := d } = rfcRun w inp { a with dim := none } := by
  cases d with
  | none => rfl
  | some d =>
  unfold rfcRun
  cases hn : inp.atoms with
  | none => rfl
  | some n =>
    simp only [hcp, Bool.false_eq_true, if_false]
    have key : rfcConstants w inp { a with dim := some d } { natoms := n } = rfcConstants w inp { a with dim := none } { natoms := n } := by
      have hnone : ∀ s : ForceState A D, s.fc = none → s.fs = none → ∀ S, rfcEigenvectors w (w.points S) s = none := by
        intro s h1 h2 S
        obtain ⟨q, qs, hq⟩ := List.exists_cons_of_ne_nil (hne S)
        rw [hq]
        simp [rfcEigenvectors, ForceState.getPhonon, ForceState.supercellPhonon, ForceState.getFS, h1, h2]
      unfold rfcConstants rfcForces rfcSupercell
      cases hsc : inp.supercell with
      | none =>
        cases hfs : inp.forceSets with
        | some f => simp
        | none =>
          cases hfc : inp.forceConstants with
          | some f => simp
          | none =>
            simp only [Option.bind_eq_bind, Option.bind_some, ForceState.supercellPhonon, ForceState.getFS, Option.map_some, Option.bind_none]
            rw [hnone _ rfl rfl]
            cases rfcFrequencies (w.points 1) a.doc <;> rfl
      | some S =>
        cases hfs : inp.forceSets with
        | some f =>
          cases hfc : inp.forceConstants with
          | some f' => simp [ForceState.supercellPhonon, ForceState.setFC]
          | none =>
            simp only [Option.bind_eq_bind, Option.bind_some, Option.map_some]
            unfold ForceState.supercellPhonon ForceState.getFS ForceState.setFS
            simp only
            split
            · rfl
            · rfl
        | none =>
          cases hfc : inp.forceConstants with
          | some f' => simp [ForceState.supercellPhonon, ForceState.setFC]
          | none =>
            simp only [Option.bind_eq_bind, Option.bind_some, ForceState.supercellPhonon, ForceState.getFS, Option.map_some]
            rw [hnone _ rfl rfl, hnone _ rfl rfl]
            cases rfcFrequencies (w.points 1) a.doc <;> cases rfcFrequencies (w.points S) a.doc <;> rfl
    rw [hcp] at key
    rw [key]

/-- A small instance: points of a 2×1×1 supercell, phonopy's results written as text. -/
private def rfcExample : RfcWorld ℚ String String String where
  points := fun S => if S 0 0 = 2 then [[0, 0, 0], [1 / 2, 0, 0]] else [[0, 0, 0]]
  eig := fun p q => s!"eig {p.forces.getD "none"} {q.headD 0}"
  renorm := fun fr es _ sym => if fr.length = es.length then some s!"renormalized {fr} {es} {sym}" else none
  produce := fun d _ => s!"from {d}"
  seek := [([0, 0, 0], [1 / 2, 0, 0])]

private def rfcInputExample : RfcInput ℚ String String where
  atoms := some 4
  supercell := some (dimMatrix ![2, 1, 1])
  forceSets := some (8, "sets")

example : rfcRun rfcExample rfcInputExample
    { doc := .dict [("a", [1 / 2, 0, 0], [5, 6]), ("b", [0, 0, 0], [1, 2])], save := some "FC", plot := true, dim := some ![7, 7, 7] }
    = ⟨[.file "FC" "renormalized [[1, 2], [5, 6]] [eig from sets 0, eig from sets 1/2] false",
        .bands [([0, 0, 0], [1 / 2, 0, 0])] ⟨dimMatrix ![2, 1, 1], some "from sets"⟩
          ⟨dimMatrix ![2, 1, 1], some "renormalized [[1, 2], [5, 6]] [eig from sets 0, eig from sets 1/2] false"⟩], false⟩ := by
  refine C135_saved_partial rfcExample rfcInputExample _ 4 (dimMatrix ![2, 1, 1]) "from sets" _ rfl rfl
    ⟨rfl, .inr ⟨rfl, 8, "sets", rfl, by unfold ForceSetsFit; decide, rfl⟩⟩ (fun q => if q = [0, 0, 0] then "b" else "a")
    (fun q => if q = [0, 0, 0] then [1, 2] else [5, 6]) [[1 / 2, 0, 0], [0, 0, 0]] ?_ (by decide +kernel) ?_ ?_ rfl
  · exact List.Perm.swap _ _ _
  · have h : ([1 / 2, 0, 0] : List ℚ) ≠ [0, 0, 0] := by decide +kernel
    simp [h]
  · decide +kernel

example : rfcRun rfcExample { rfcInputExample with supercell := none } { cp := true, doc := .list [] } = ⟨[.points [[0, 0, 0]]], false⟩ :=
  C135_points rfcExample _ _ rfl rfl

example : (rfcRun rfcExample { rfcInputExample with bands := some ([([0, 0, 0], [1 / 2, 0, 0])], true) }
    { doc := .dict [("a", [1 / 2, 0, 0], [5, 6]), ("b", [0, 0, 0], [1, 2])], save := some "FC", plot := true }).failed = true :=
  (C135_bands_violated rfcExample _ _ rfl rfl rfl).1

end Verif
