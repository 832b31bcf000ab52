import Verif.Model.QhaPlots
import Verif.Props.QhaScript

/-! # C130: the plots of the quasi-harmonic script -/

set_option autoImplicit false
set_option linter.unusedSectionVars false

namespace Verif
open QhaObj

variable {Q : Type} {nt nv nq nb : ℕ} {tools : QhaTools ℝ} {d : QhaFit ℝ Q nt nv nq nb} {tmin tmax : Option ℝ} {s : QhaObj Q nt nv nq nb}

theorem mapCalls_spec {A S : Type} {f : ℝ → S → Option A × S} {g : ℝ → Option A} {P : S → Prop} (h : ∀ x s, P s → (f x s).1 = g x ∧ P (f x s).2) (l : List ℝ) {s : S} (hs : P s) :
    (mapCalls f l s).1 = l.mapM g ∧ P (mapCalls f l s).2 := by
  induction l generalizing s with
  | nil => exact ⟨rfl, hs⟩
  | cons x l ih =>
    obtain ⟨e, hc⟩ := h x s hs
    rw [mapCalls, List.mapM_cons]
    obtain ⟨m, s', hm⟩ : ∃ m s', f x s = (m, s') := ⟨_, _, rfl⟩
    rw [hm] at e hc ⊢
    simp only at e hc ⊢
    rw [← e]
    cases m with
    | none => exact ⟨rfl, hc⟩
    | some a =>
      obtain ⟨e2, hc2⟩ := ih hc
      obtain ⟨l', s'', hl⟩ : ∃ l' s'', mapCalls f l s' = (l', s'') := ⟨_, _, rfl⟩
      rw [hl] at e2 hc2
      simp only at e2 hc2
      simp only [hl, ← e2]
      cases l' with
      | none => exact ⟨rfl, hc2⟩
      | some l' => exact ⟨rfl, hc2⟩

/-- The row of a wave vector: the first wave vector of the first temperature file that is close to it. -/
def IsRow (close : Q → Q → Bool) (d : QhaFit ℝ Q nt nv nq nb) (q : Q) (k : Fin nq) : Prop := close (d.filesT 0 k).1 q = true ∧ ∀ k' < k, close (d.filesT 0 k').1 q = false

theorem qIndex_spec (hd : s.data = d) (close : Q → Q → Bool) (q : Q) {k : Fin nq} (h : s.qIndex close q = some k) : IsRow close d q k := by
  unfold qIndex at h
  rw [hd] at h
  cases hq : qpointToIndex close (List.ofFn fun i => (d.filesT 0 i).1) q with
  | none => rw [hq] at h; simp at h
  | some i =>
    rw [hq] at h
    unfold qpointToIndex at hq
    rw [List.findIdx?_eq_some_iff_getElem] at hq
    obtain ⟨hk, h1, h2⟩ := hq
    have hk' : i < nq := by simpa using hk
    simp only [dif_pos hk', Option.some.injEq] at h
    subst h
    exact ⟨by simpa using h1, fun k' hlt => by simpa using h2 k' hlt⟩

/-- The branches asked for: all in their order, or the one with the number given (from the end if negative). -/
def BranchList (nb : ℕ) (branch : Option ℤ) (bs : List (Fin nb)) : Prop :=
  match branch with
  | none => bs = List.finRange nb
  | some i => ∃ b : Fin nb, bs = [b] ∧ ((b : ℤ) = i ∨ (b : ℤ) = i + nb)

theorem branchesOf_spec {branch : Option ℤ} {bs : List (Fin nb)} (h : branchesOf nb branch = some bs) : BranchList nb branch bs := by
  cases branch with
  | none => exact (Option.some.inj h).symm
  | some i =>
    unfold branchesOf at h
    by_cases hi : i < 0
    · simp only [hi, if_true] at h
      split at h
      · rename_i hj
        exact ⟨_, (Option.some.inj h).symm, Or.inr (by simp only; omega)⟩
      · exact absurd h (by simp)
    · simp only [hi, if_false] at h
      split at h
      · rename_i hj
        exact ⟨_, (Option.some.inj h).symm, Or.inl (by simp only; omega)⟩
      · exact absurd h (by simp)

/-- What a plot of shifts shows: dots for the data, lines for the calculated shifts. -/
structure ShowsShifts {n : ℕ} (p : ShiftPlot) (bs : List (Fin nb)) (chk : List ℝ) (xs : Fin n → ℝ) (data : Fin nb → Fin n → ℝ) (curve : ℝ → Fin nb → Option ℝ) : Prop where
  dots : p.dots = bs.map fun b => List.ofFn fun i => (xs i, data b i)
  nLines : p.lines.length = bs.length
  lines : ∀ (j : ℕ) (b : Fin nb), bs[j]? = some b → ∃ l, p.lines[j]? = some l ∧ l.map Prod.fst = chk ∧ ∀ x y, (x, y) ∈ l → curve x b = some y

theorem shiftCurves_spec {n : ℕ} {xs : Fin n → ℝ} {m : Fin nb → Fin nq → Fin n → ℝ} {chk : List ℝ} {arrays : List (Fin nq → Fin nb → ℝ)} {k : Fin nq} {branch : Option ℤ} {p : ShiftPlot}
    {g : ℝ → Option (Fin nq → Fin nb → ℝ)} (hg : chk.mapM g = some arrays) (h : shiftCurves xs m chk arrays k branch = some p) :
    ∃ bs, BranchList nb branch bs ∧ ShowsShifts p bs chk xs (fun b i => m b k i) fun x b => (g x).map fun a => a k b := by
  unfold shiftCurves at h
  split at h
  · exact absurd h (by simp)
  · obtain ⟨bs, hbs, rfl⟩ := Option.map_eq_some_iff.1 h
    obtain ⟨hlen, hget⟩ := mapM_lookup hg
    refine ⟨bs, branchesOf_spec hbs, rfl, by simp, fun j b hb => ⟨_, by rw [List.getElem?_map, hb]; rfl, ?_, ?_⟩⟩
    · rw [List.map_fst_zip]; simp [hlen]
    · intro x y hxy
      obtain ⟨i, hi⟩ := List.mem_iff_getElem?.1 hxy
      rw [List.getElem?_zip_eq_some] at hi
      obtain ⟨a, ha, hga⟩ := hget i x hi.1
      have := hi.2
      rw [List.getElem?_map, ha] at this
      rw [hga]
      exact congrArg some (Option.some.inj this)

/-- **C130**: after any calls, `plot_fitted_shifts_temperature` draws, for each branch asked for, the shifts of the frequencies in the temperature files from the harmonic ones, as dots at the temperatures, and as a line the fitted (or interpolated)
shifts at temperatures from the first to the last in steps of 10. -/
theorem C130_temperature (hu : UniformErrors tools.interp) (thermo : Thermo nq nb) (d : QhaFit ℝ Q nt nv nq nb) (tmin tmax : Option ℝ) (calls : List Call) (close : Q → Q → Bool) (q : Q) (branch : Option ℤ) (interpolated : Bool) (p : ShiftPlot)
    (h : (plotFittedT tools close q branch interpolated (after tools thermo calls (new d tmin tmax))).1 = some p) :
    ∃ k bs, IsRow close d q k ∧ BranchList nb branch bs ∧
      ShowsShifts p bs (arange (d.temperatures 0) (d.temperatures (Fin.last nt)) 10) d.temperatures (fun b i => (d.filesT i k).2 b - d.phonons (d.filesT 0 k).1 b)
        (fun t b => if interpolated then d.interpolatedT tools t k b else some (d.fittedT tools t k b)) := by
  have hc : Consistent tools d tmin tmax (after tools thermo calls (new d tmin tmax)) := consistent_after thermo calls consistent_new
  unfold plotFittedT at h
  cases hk : (after tools thermo calls (new d tmin tmax)).qIndex close q with
  | none => rw [hk] at h; simp at h
  | some k =>
    rw [hk] at h
    have hrow := qIndex_spec hc.data close q hk
    obtain ⟨em, hcm⟩ := getShiftMatrixT_spec hc
    simp only [em] at h
    rw [hcm.data] at h
    obtain ⟨e, hc2⟩ := mapCalls_spec (P := Consistent tools d tmin tmax)
      (f := fun t s => if interpolated then s.getInterpolatedT tools t else s.getFittedT tools (some t))
      (g := fun t => if interpolated then allEntries fun q b => d.interpolatedT tools t q b else some fun q b => d.fittedT tools t q b)
      (fun t s hs => by
        cases interpolated with
        | true => exact getInterpolatedT_spec hs t
        | false => exact getFittedT_spec hs (some t))
      (arange (d.temperatures 0) (d.temperatures (Fin.last nt)) 10) hcm
    set R := mapCalls (fun t s => if interpolated then s.getInterpolatedT tools t else s.getFittedT tools (some t)) (arange (d.temperatures 0) (d.temperatures (Fin.last nt)) 10)
      (after tools thermo calls (new d tmin tmax)).getShiftMatrixT.2 with hR
    obtain ⟨m, s', hm⟩ : ∃ m s', R = (m, s') := ⟨_, _, rfl⟩
    rw [hm] at e hc2 h
    simp only at e hc2 h
    cases m with
    | none => simp at h
    | some arrays =>
      simp only at h
      rw [hc2.data] at h
      obtain ⟨bs, hbs, hshow⟩ := shiftCurves_spec e.symm h
      refine ⟨k, bs, hrow, hbs, ?_⟩
      have : (fun t b => if interpolated then d.interpolatedT tools t k b else some (d.fittedT tools t k b)) =
          fun (t : ℝ) (b : Fin nb) => ((if interpolated then allEntries fun q b => d.interpolatedT tools t q b else some fun q b => d.fittedT tools t q b : Option (Fin nq → Fin nb → ℝ))).map fun a => a k b := by
        funext t b
        cases interpolated with
        | false => rfl
        | true =>
          refine (allEntries_map (f := fun q b => d.interpolatedT tools t q b) ?_ k b).symm
          intro q b q' b'
          exact hu _ _ (by simp [List.map_ofFn, Function.comp_def]) t
      rw [this]
      exact hshow

/-- **C130**: the same for `plot_fitted_shifts_volumes`: dots for the differences of the frequencies in the volume files from those fitted at the reference temperature, and as a line the fitted (or interpolated) differences at volumes from the first to
the last in steps of 0.1. -/
theorem C130_volume (hu : UniformErrors tools.interp) (thermo : Thermo nq nb) (d : QhaFit ℝ Q nt nv nq nb) (tmin tmax : Option ℝ) (calls : List Call) (close : Q → Q → Bool) (q : Q) (branch : Option ℤ) (interpolate : Bool) (p : ShiftPlot)
    (h : (plotFittedV tools close q branch interpolate (after tools thermo calls (new d tmin tmax))).1 = some p) :
    ∃ k bs r, IsRow close d q k ∧ BranchList nb branch bs ∧ d.refTemperature = some r ∧
      ShowsShifts p bs (arange (d.volumes 0) (d.volumes (Fin.last nv)) (1 / 10)) d.volumes (fun b i => (d.filesV i k).2 b - (d.fittedT tools r k b + d.phonons (d.filesT 0 k).1 b))
        (fun v b => if interpolate then d.interpolatedV tools v k b else d.fittedV tools v k b) := by
  have hc : Consistent tools d tmin tmax (after tools thermo calls (new d tmin tmax)) := consistent_after thermo calls consistent_new
  unfold plotFittedV at h
  cases hk : (after tools thermo calls (new d tmin tmax)).qIndex close q with
  | none => rw [hk] at h; simp at h
  | some k =>
    rw [hk] at h
    have hrow := qIndex_spec hc.data close q hk
    obtain ⟨em, hcm⟩ := getShiftMatrixV_spec hc
    simp only at h
    obtain ⟨m, s1, hm⟩ : ∃ m s1, (after tools thermo calls (new d tmin tmax)).getShiftMatrixV tools = (m, s1) := ⟨_, _, rfl⟩
    rw [hm] at em hcm h
    simp only at em hcm h
    cases m with
    | none => simp at h
    | some m =>
      simp only at h
      rw [hcm.data] at h
      unfold shiftArray at em
      obtain ⟨r, hr, hmr⟩ := Option.map_eq_some_iff.1 em.symm
      obtain ⟨e, hc2⟩ := mapCalls_spec (P := Consistent tools d tmin tmax)
        (f := fun v s => if interpolate then s.getInterpolatedV tools v else s.getFittedV tools v)
        (g := fun v => if interpolate then ((new d tmin tmax).getInterpolatedV tools v).1 else ((new d tmin tmax).getFittedV tools v).1)
        (fun v s hs => by
          have h0 : Consistent tools d tmin tmax (new d tmin tmax) := consistent_new
          cases interpolate with
          | true => exact ⟨(getInterpolatedV_spec hs v).1.trans (getInterpolatedV_spec h0 v).1.symm, (getInterpolatedV_spec hs v).2⟩
          | false => exact ⟨(getFittedV_spec hs v).1.trans (getFittedV_spec h0 v).1.symm, (getFittedV_spec hs v).2⟩)
        (arange (d.volumes 0) (d.volumes (Fin.last nv)) (1 / 10)) hcm
      obtain ⟨R, s', hR⟩ : ∃ R s', mapCalls (fun v s => if interpolate then s.getInterpolatedV tools v else s.getFittedV tools v) (arange (d.volumes 0) (d.volumes (Fin.last nv)) (1 / 10)) s1 = (R, s') := ⟨_, _, rfl⟩
      rw [hR] at e hc2 h
      simp only at e hc2 h
      cases R with
      | none => simp at h
      | some arrays =>
        simp only at h
        rw [hc2.data] at h
        obtain ⟨bs, hbs, hshow⟩ := shiftCurves_spec e.symm h
        refine ⟨k, bs, r, hrow, hbs, hr, ?_⟩
        have hsh : shiftArray tools d = some m := em.symm
        have hV : ∀ b, d.shiftV tools b k = some (m b k) := fun b => by
          unfold QhaFit.shiftV
          rw [hr, ← hmr]; rfl
        have h0 : Consistent tools d tmin tmax (new d tmin tmax) := consistent_new
        have hdots : (fun b i => (d.filesV i k).2 b - (d.fittedT tools r k b + d.phonons (d.filesT 0 k).1 b)) = fun b i => m b k i := by rw [← hmr]; rfl
        have hlines : (fun v b => if interpolate then d.interpolatedV tools v k b else d.fittedV tools v k b) =
            fun (v : ℝ) (b : Fin nb) => ((if interpolate then ((new d tmin tmax).getInterpolatedV tools v).1 else ((new d tmin tmax).getFittedV tools v).1 : Option (Fin nq → Fin nb → ℝ))).map fun a => a k b := by
          funext v b
          cases interpolate with
          | false =>
            simp only [Bool.false_eq_true, if_false]
            rw [(getFittedV_spec h0 v).1, hsh]
            unfold QhaFit.fittedV
            rw [hV]; rfl
          | true =>
            simp only [if_true]
            rw [(getInterpolatedV_spec h0 v).1, hsh]
            unfold QhaFit.interpolatedV
            rw [hV, Option.bind_some, Option.bind_some]
            refine (allEntries_map (f := fun q b => tools.interp (List.ofFn fun i => (d.volumes i, m b q i)) v) ?_ k b).symm
            intro q b q' b'
            exact hu _ _ (by simp [List.map_ofFn, Function.comp_def]) v
        rw [hdots, hlines]
        exact hshow

/-- **C130**: after any calls, the plots of the linewidths and of the shifts stored in the files show, for each branch asked for, the entry of the row of the wave vector in each file, at the volume or temperature of the file; `get_shift_temperature`
gives these numbers. -/
theorem C130_files {n : ℕ} (thermo : Thermo nq nb) (d : QhaFit ℝ Q nt nv nq nb) (tmin tmax : Option ℝ) (calls : List Call) (close : Q → Q → Bool) (q : Q) (branch : Option ℤ) (xs : Fin n → ℝ) (entry : Fin n → Fin nq → Fin nb → ℝ)
    (entryT : Fin (nt + 1) → Fin nq → Fin nb → ℝ) :
    (∀ p, plotFileEntries close q branch xs entry (after tools thermo calls (new d tmin tmax)) = some p →
      ∃ k bs, IsRow close d q k ∧ BranchList nb branch bs ∧ p = bs.map fun b => List.ofFn fun i => (xs i, entry i k b)) ∧
    (∀ a, getShiftTemperature close q entryT (after tools thermo calls (new d tmin tmax)) = some a → ∃ k, IsRow close d q k ∧ ∀ b i, a b i = entryT i k b) := by
  have hc : Consistent tools d tmin tmax (after tools thermo calls (new d tmin tmax)) := consistent_after thermo calls consistent_new
  refine ⟨fun p h => ?_, fun a h => ?_⟩
  · unfold plotFileEntries at h
    obtain ⟨k, hk, h⟩ := Option.bind_eq_some_iff.1 h
    obtain ⟨bs, hbs, rfl⟩ := Option.map_eq_some_iff.1 h
    exact ⟨k, bs, qIndex_spec hc.data close q hk, branchesOf_spec hbs, rfl⟩
  · unfold getShiftTemperature at h
    obtain ⟨k, hk, rfl⟩ := Option.map_eq_some_iff.1 h
    exact ⟨k, qIndex_spec hc.data close q hk, fun _ _ => rfl⟩

/-- **C130** (what is drawn at all): after any calls, the plot of the entries of the files is drawn if and only if a wave vector of the first temperature file is close to the one asked for and the number of the branch is one of a list of
`nb` entries, also from the end. -/
theorem C130_drawn {n : ℕ} (thermo : Thermo nq nb) (d : QhaFit ℝ Q nt nv nq nb) (tmin tmax : Option ℝ) (calls : List Call) (close : Q → Q → Bool) (q : Q) (branch : Option ℤ) (xs : Fin n → ℝ) (entry : Fin n → Fin nq → Fin nb → ℝ) :
    (∃ p, plotFileEntries close q branch xs entry (after tools thermo calls (new d tmin tmax)) = some p) ↔
      (∃ k, close (d.filesT 0 k).1 q = true) ∧ ∀ i, branch = some i → -nb ≤ i ∧ i < nb := by
  have hc : Consistent tools d tmin tmax (after tools thermo calls (new d tmin tmax)) := consistent_after thermo calls consistent_new
  have hk : (∃ k, (after tools thermo calls (new d tmin tmax)).qIndex close q = some k) ↔ ∃ k, close (d.filesT 0 k).1 q = true := by
    constructor
    · rintro ⟨k, h⟩
      exact ⟨k, (qIndex_spec hc.data close q h).1⟩
    · rintro ⟨k, h⟩
      unfold qIndex
      rw [hc.data]
      have hex : ∃ i, qpointToIndex close (List.ofFn fun i => (d.filesT 0 i).1) q = some i := by
        unfold qpointToIndex
        rw [← Option.isSome_iff_exists, List.findIdx?_isSome, List.any_eq_true]
        exact ⟨_, List.mem_ofFn.2 ⟨k, rfl⟩, h⟩
      obtain ⟨i, hi⟩ := hex
      have hlt : i < nq := by
        have := hi
        unfold qpointToIndex at this
        rw [List.findIdx?_eq_some_iff_getElem] at this
        obtain ⟨h', -⟩ := this
        simpa using h'
      simp only [hi, dif_pos hlt]
      exact ⟨_, rfl⟩
  have hb : (∃ bs, branchesOf nb branch = some bs) ↔ ∀ i, branch = some i → -nb ≤ i ∧ i < nb := by
    cases branch with
    | none => simp [branchesOf]
    | some i =>
      simp only [branchesOf, Option.some.injEq, forall_eq']
      by_cases hi : i < 0
      · simp only [hi, if_true]
        by_cases h : 0 ≤ i + nb ∧ i + nb < nb
        · rw [dif_pos h]; exact ⟨fun _ => by omega, fun _ => ⟨_, rfl⟩⟩
        · rw [dif_neg h]; constructor
          · rintro ⟨_, h'⟩; exact absurd h' (by simp)
          · intro h'; omega
      · simp only [hi, if_false]
        by_cases h : 0 ≤ i ∧ i < nb
        · rw [dif_pos h]; exact ⟨fun _ => by omega, fun _ => ⟨_, rfl⟩⟩
        · rw [dif_neg h]; constructor
          · rintro ⟨_, h'⟩; exact absurd h' (by simp)
          · intro h'; omega
  rw [← hk, ← hb]
  unfold plotFileEntries
  constructor
  · rintro ⟨p, h⟩
    obtain ⟨k, hk, h⟩ := Option.bind_eq_some_iff.1 h
    obtain ⟨bs, hbs, -⟩ := Option.map_eq_some_iff.1 h
    exact ⟨⟨k, hk⟩, bs, hbs⟩
  · rintro ⟨⟨k, hk⟩, bs, hbs⟩
    rw [hk, Option.bind_some, hbs]
    exact ⟨_, rfl⟩

/-- **C130**: after any calls, the plot of the total shift shows, for each branch asked for, the total shift at each temperature and the equilibrium volume of that temperature. -/
theorem C130_total (hu : UniformErrors tools.interp) (thermo : Thermo nq nb) (d : QhaFit ℝ Q nt nv nq nb) (tmin tmax : Option ℝ) (calls : List Call) (close : Q → Q → Bool) (temperatures volumes : List ℝ) (hlen : volumes.length = temperatures.length) (q : Q)
    (branch : Option ℤ) (p : List (List (ℝ × ℝ))) (title : Option ℝ) (h : plotTotalShift tools close temperatures volumes q branch (after tools thermo calls (new d tmin tmax)) = some (p, title)) :
    ∃ k bs, IsRow close d q k ∧ BranchList nb branch bs ∧ p.length = bs.length ∧ ∀ (j : ℕ) (b : Fin nb), bs[j]? = some b → ∃ l, p[j]? = some l ∧ l.map Prod.fst = temperatures ∧
      ∀ (i : ℕ) (t y : ℝ), l[i]? = some (t, y) → ∃ v, volumes[i]? = some v ∧ d.totalShift tools (some v) t false false k b = some y := by
  unfold plotTotalShift at h
  obtain ⟨r, hr, h⟩ := Option.bind_eq_some_iff.1 h
  obtain ⟨bs, hbs, h⟩ := Option.map_eq_some_iff.1 h
  obtain ⟨k, hk, hk', hall⟩ := C119_pressure tools hu thermo d tmin tmax calls close temperatures volumes q r hr
  obtain ⟨rfl, -⟩ := Prod.mk.inj h
  refine ⟨k, bs, ⟨hk, hk'⟩, branchesOf_spec hbs, by simp, fun j b hb => ⟨_, by rw [List.getElem?_map, hb]; rfl, ?_, ?_⟩⟩
  · rw [List.map_fst_zip]; rw [(hall b).1, hlen]; simp
  · intro i t y hi
    rw [List.getElem?_zip_eq_some] at hi
    have hiv : i < volumes.length := by rw [hlen]; exact (List.getElem?_eq_some_iff.1 hi.1).1
    obtain ⟨w, hw, hs⟩ := (hall b).2 i t volumes[i] hi.1 (List.getElem?_eq_getElem hiv)
    refine ⟨_, List.getElem?_eq_getElem hiv, ?_⟩
    rw [hs, ← hw, hi.2]

/-- Tools for the examples: fit and interpolation give the first value. -/
noncomputable def constTools : QhaTools ℝ where
  polyfit pts _ := Polynomial.C ((pts.head?.map (·.2)).getD 0)
  interp pts _ := pts.head?.map (·.2)

theorem constTools_uniform : UniformErrors constTools.interp := by
  intro p p' h x
  have h1 : p.length = p'.length := by simpa using congrArg List.length h
  cases p <;> cases p' <;> simp_all [constTools]

/-- One wave vector, one branch with harmonic frequency 5 and frequency 3 at every temperature and volume. -/
noncomputable def flatFit : QhaFit ℝ Unit 1 1 1 1 := ⟨fun i => 300 * i.val, fun i => 10 + i.val, fun _ _ => ((), fun _ => 3), fun _ _ => ((), fun _ => 3), fun _ _ => 5, some 300, 1⟩

/-- The plot of the total shift at two temperatures. -/
theorem flat_plot : plotTotalShift constTools (fun _ _ => true) [0, 300] [10, 11] () none (new flatFit none none) = some ([[(0, -2), (300, -2)]], some 300) := by
  simp [plotTotalShift, qhaShiftConstantPressure, qpointToIndex, qhaShiftLoop, getTotalShifts, getFittedT, getInterpolatedV, getShiftMatrixV, getShiftMatrixT, getHarmonic, flatFit, constTools, new, branchesOf, allEntries, List.finRange_succ]
  norm_num

/-- **C130, violated**: the title of the plot of the total shift says that the shifts are relative to the reference temperature; they are relative to the harmonic frequencies: also if nothing depends on the volume, the shift at the reference
temperature is not zero. -/
theorem C130_title_violated : ¬ ∀ (tools : QhaTools ℝ) (_ : UniformErrors tools.interp) (d : QhaFit ℝ Unit 1 1 1 1) (temperatures volumes : List ℝ) (p : List (List (ℝ × ℝ))) (r : ℝ),
    plotTotalShift tools (fun _ _ => true) temperatures volumes () none (new d none none) = some (p, some r) → (∀ i k b, (d.filesV i k).2 b = d.fittedT tools r k b + d.phonons (d.filesT 0 k).1 b) →
    ∀ l ∈ p, ∀ y, (r, y) ∈ l → y = 0 := by
  intro h
  have := h constTools constTools_uniform flatFit [0, 300] [10, 11] _ 300 flat_plot (by
    intro i k b
    simp [QhaFit.fittedT, QhaFit.shiftT, QhaFit.harmonic, flatFit, constTools]) _ (List.mem_cons_self ..) (-2) (by simp)
  norm_num at this

/-- Two temperatures, two wave vectors, listed in another order in the second file. -/
noncomputable def mixedFit : QhaFit ℝ Bool 1 0 2 1 :=
  ⟨fun i => 300 * i.val, fun _ => 10, fun i k => (decide (i.val = k.val), fun _ => if i.val = k.val then 3 else 4), fun _ _ => (true, fun _ => 3), fun q _ => if q then 3 else 4, some 300, 1⟩

/-- **C130, violated**: the rows of the wave vectors are looked up in the first temperature file only: if another file has them in another order, the plots mix wave vectors: for data without any shift the dots show one. -/
theorem C130_order_violated : ∃ d : QhaFit ℝ Bool 1 0 2 1, (∀ i k b, (d.filesT i k).2 b = d.phonons (d.filesT i k).1 b) ∧ (∀ i, Function.Injective fun k => (d.filesT i k).1) ∧
    ∃ p, (plotFittedT constTools (fun a b => a == b) true none false (new d none none)).1 = some p ∧ p.dots = [[(0, 0), (300, 1)]] := by
  refine ⟨mixedFit, ?_, ?_, ?_⟩
  · intro i k b
    simp [mixedFit]
  · intro i k k' h
    have h' : decide (i.val = k.val) = decide (i.val = k'.val) := h
    rw [decide_eq_decide] at h'
    have := i.isLt; have := k.isLt; have := k'.isLt
    ext; omega
  · have hk : (new mixedFit none none).qIndex (fun a b => a == b) true = some 0 := by
      simp [qIndex, qpointToIndex, new, mixedFit, List.findIdx?_cons]
    obtain ⟨e, hc2⟩ := mapCalls_spec (P := Consistent constTools mixedFit none none)
      (f := fun t s => s.getFittedT constTools (some t)) (g := fun t => some fun q b => mixedFit.fittedT constTools t q b)
      (fun t s hs => getFittedT_spec hs (some t)) (arange (mixedFit.temperatures 0) (mixedFit.temperatures (Fin.last 1)) 10) (getShiftMatrixT_spec consistent_new).2
    have hne : arange (mixedFit.temperatures 0) (mixedFit.temperatures (Fin.last 1)) 10 ≠ [] := by
      intro h
      have := congrArg List.length h
      unfold arange mixedFit at this
      norm_num at this
    unfold plotFittedT
    rw [hk]
    simp only [(getShiftMatrixT_spec (consistent_new (tools := constTools) (d := mixedFit) (tmin := none) (tmax := none))).1, Bool.false_eq_true, if_false]
    rw [(getShiftMatrixT_spec (consistent_new (tools := constTools) (d := mixedFit) (tmin := none) (tmax := none))).2.data]
    obtain ⟨R, s', hR⟩ : ∃ R s', mapCalls (fun t s => s.getFittedT constTools (some t)) (arange (mixedFit.temperatures 0) (mixedFit.temperatures (Fin.last 1)) 10) (new mixedFit none none).getShiftMatrixT.2 = (R, s') := ⟨_, _, rfl⟩
    rw [hR] at e hc2 ⊢
    simp only at e hc2 ⊢
    have hsome : (arange (mixedFit.temperatures 0) (mixedFit.temperatures (Fin.last 1)) 10).mapM (fun t => some fun q b => mixedFit.fittedT constTools t q b) = some ((arange (mixedFit.temperatures 0) (mixedFit.temperatures (Fin.last 1)) 10).map fun t q b => mixedFit.fittedT constTools t q b) := by
      induction (arange (mixedFit.temperatures 0) (mixedFit.temperatures (Fin.last 1)) 10) with
      | nil => rfl
      | cons x l ih => rw [List.mapM_cons, ih]; rfl
    rw [hsome] at e
    subst e
    simp only [hc2.data]
    refine ⟨_, by unfold shiftCurves; rw [if_neg hne]; rfl, ?_⟩
    simp [QhaFit.shiftT, QhaFit.harmonic, mixedFit, List.finRange_succ]
    norm_num

/-- The hypothesis of `C130_total` is met by the flat data, that of `C130_temperature` by the mixed ones (above). -/
example : ∃ p t, plotTotalShift constTools (fun _ _ => true) [0, 300] [10, 11] () none (after constTools (fun _ _ => (0, 0, 0)) [] (new flatFit none none)) = some (p, t) := ⟨_, _, flat_plot⟩


end Verif
