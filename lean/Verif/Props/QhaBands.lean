import Verif.Model.QhaBands
import Verif.Props.QhaPlots

/-! # C136: band structures, densities of states and thermal properties of the quasi-harmonic script -/

set_option autoImplicit false
set_option linter.unusedSectionVars false

namespace Verif
open QhaObj

variable {Q R B : Type} {nt nv nq nb : ℕ} {tools : QhaTools ℝ} {d : QhaFit ℝ Q nt nv nq nb} {tmin tmax : Option ℝ} {s : QhaObj Q nt nv nq nb}

/-- Specification: `f` are the frequencies at this temperature and volume, entry by entry: harmonic frequency plus total shift (C96). -/
def FrequenciesAt (tools : QhaTools ℝ) (d : QhaFit ℝ Q nt nv nq nb) (t v : ℝ) (f : Fin nq → Fin nb → ℝ) : Prop :=
  ∀ k b, ∃ w, d.totalShift tools (some v) t false false k b = some w ∧ f k b = d.harmonic k b + w

theorem frequenciesAt_of_array (hu : UniformErrors tools.interp) {t v : ℝ} {f : Fin nq → Fin nb → ℝ} (h : totalFrequencyArray tools d t (some v) = some f) :
    FrequenciesAt tools d t v f := by
  obtain ⟨w, hw, rfl⟩ := Option.map_eq_some_iff.1 h
  intro k b
  refine ⟨w k b, ?_, rfl⟩
  rw [← totalShiftArray_entry hu, hw]; rfl

theorem atState_spec (hs : Consistent tools d tmin tmax s) (of : (Fin nq → Fin nb → ℝ) → B) (t v : ℝ) :
    (s.atState tools of t v).1 = (totalFrequencyArray tools d t (some v)).map of ∧ Consistent tools d tmin tmax (s.atState tools of t v).2 := by
  obtain ⟨e, hc⟩ := getTotalFrequencies_spec hs t (some v)
  unfold atState totalFrequencyArray
  obtain ⟨m, s', hm⟩ : ∃ m s', s.getTotalFrequencies tools t (some v) = (m, s') := ⟨_, _, rfl⟩
  rw [hm] at e hc ⊢
  simp only at e hc
  rw [← e]
  cases m with
  | none => exact ⟨rfl, hc⟩
  | some f => exact ⟨rfl, hc⟩

/-- **C136**: after any calls, bands and densities of states at a temperature and volume (`get_band_structure`, `get_dos`, `plot_dos`) are those of the frequencies at this temperature and volume. -/
theorem C136_state (hu : UniformErrors tools.interp) (thermo : Thermo nq nb) (d : QhaFit ℝ Q nt nv nq nb) (tmin tmax : Option ℝ) (calls : List Call)
    (of : (Fin nq → Fin nb → ℝ) → B) (t v : ℝ) (r : B) (h : ((after tools thermo calls (new d tmin tmax)).atState tools of t v).1 = some r) :
    ∃ f, FrequenciesAt tools d t v f ∧ r = of f := by
  rw [(atState_spec (consistent_after thermo calls consistent_new) of t v).1] at h
  obtain ⟨f, hf, rfl⟩ := Option.map_eq_some_iff.1 h
  exact ⟨f, frequenciesAt_of_array hu hf, rfl⟩

theorem volumeNumber_spec (hd : s.data = d) {i : ℤ} {v : ℝ} (h : s.volumeNumber i = some v) :
    ∃ j : Fin (nv + 1), ((j : ℤ) = i ∨ (j : ℤ) = i + (nv + 1)) ∧ (i < 0 ↔ (j : ℤ) ≠ i) ∧ v = d.volumes j := by
  unfold volumeNumber at h
  obtain ⟨j, hj⟩ : ∃ j, j = if i < 0 then i + ((nv : ℤ) + 1) else i := ⟨_, rfl⟩
  simp only [← hj] at h
  by_cases hr : 0 ≤ j ∧ j < nv + 1
  · rw [dif_pos hr] at h
    simp only [Option.some.injEq] at h
    subst h
    rw [hd]
    have hjn : ((j.toNat : ℕ) : ℤ) = j := Int.toNat_of_nonneg hr.1
    refine ⟨_, ?_, ?_, rfl⟩
    · simp only [hjn]
      split_ifs at hj <;> omega
    · simp only [hjn]
      split_ifs at hj <;> omega
  · rw [dif_neg hr] at h
    exact absurd h (by simp)

/-- **C136**: after any calls, the density of states drawn for a volume by its number (counted from the end if negative) is that of the frequencies at this volume and the given temperature. -/
theorem C136_density (hu : UniformErrors tools.interp) (thermo : Thermo nq nb) (d : QhaFit ℝ Q nt nv nq nb) (tmin tmax : Option ℝ) (calls : List Call)
    (dosOf : (Fin nq → Fin nb → ℝ) → B) (i : ℤ) (t : ℝ) (r : B) (h : ((after tools thermo calls (new d tmin tmax)).plotDensity tools dosOf i t).1 = some r) :
    ∃ j : Fin (nv + 1), ((j : ℤ) = i ∨ i < 0 ∧ (j : ℤ) = i + (nv + 1)) ∧ ∃ f, FrequenciesAt tools d t (d.volumes j) f ∧ r = dosOf f := by
  have hc : Consistent tools d tmin tmax (after tools thermo calls (new d tmin tmax)) := consistent_after thermo calls consistent_new
  unfold plotDensity at h
  split at h
  · exact absurd h (by simp)
  · rename_i v hv
    obtain ⟨j, hj, hneg, rfl⟩ := volumeNumber_spec hc.data hv
    refine ⟨j, by omega, C136_state hu thermo d tmin tmax calls dosOf t _ r h⟩

/-- **C136**: after any calls, the thermal properties drawn for a volume by its number are three curves over the same temperatures (from tmin, or the first temperature of the data, in steps of 10 K, below
tmax, or the last temperature): at each of them free energy, entropy and heat capacity of the frequencies at this temperature and volume. -/
theorem C136_thermal (hu : UniformErrors tools.interp) (thermo : Thermo nq nb) (d : QhaFit ℝ Q nt nv nq nb) (tmin tmax : Option ℝ) (calls : List Call)
    (i : ℤ) (curves : List (List (ℝ × ℝ))) (h : ((after tools thermo calls (new d tmin tmax)).plotThermal tools thermo i).1 = some curves) :
    ∃ j : Fin (nv + 1), ((j : ℤ) = i ∨ i < 0 ∧ (j : ℤ) = i + (nv + 1)) ∧ ∃ values : List (ℝ × ℝ × ℝ),
      curves = [(arange (tmin.getD (d.temperatures 0)) (tmax.getD (d.temperatures (Fin.last nt))) 10).zip (values.map (·.1)),
        (arange (tmin.getD (d.temperatures 0)) (tmax.getD (d.temperatures (Fin.last nt))) 10).zip (values.map (·.2.1)),
        (arange (tmin.getD (d.temperatures 0)) (tmax.getD (d.temperatures (Fin.last nt))) 10).zip (values.map (·.2.2))] ∧
      values.length = (arange (tmin.getD (d.temperatures 0)) (tmax.getD (d.temperatures (Fin.last nt))) 10).length ∧
      ∀ (n : ℕ) (t : ℝ), (arange (tmin.getD (d.temperatures 0)) (tmax.getD (d.temperatures (Fin.last nt))) 10)[n]? = some t →
        ∃ f, FrequenciesAt tools d t (d.volumes j) f ∧ values[n]? = some (thermo f t) := by
  have hc : Consistent tools d tmin tmax (after tools thermo calls (new d tmin tmax)) := consistent_after thermo calls consistent_new
  unfold plotThermal at h
  split at h
  · exact absurd h (by simp)
  · rename_i v hv
    obtain ⟨j, hj, hneg, rfl⟩ := volumeNumber_spec hc.data hv
    refine ⟨j, by omega, ?_⟩
    obtain ⟨e, hc2⟩ := getThermalProperties_spec thermo (some (d.volumes j)) hc
    obtain ⟨m, s', hm⟩ : ∃ m s', (after tools thermo calls (new d tmin tmax)).getThermalProperties tools thermo (some (d.volumes j)) = (m, s') := ⟨_, _, rfl⟩
    rw [hm] at e hc2 h
    simp only at e hc2
    cases m with
    | none => exact absurd h (by simp)
    | some m =>
      obtain ⟨a, b, c⟩ := m
      simp only [Option.some.injEq] at h
      rw [(getRange_spec hc2 10).1] at h
      unfold thermalArrays at e
      obtain ⟨values, hval, habc⟩ := Option.map_eq_some_iff.1 e.symm
      simp only [Prod.mk.injEq] at habc
      obtain ⟨h1, h2, h3⟩ := habc
      subst h1; subst h2; subst h3
      obtain ⟨hlen, hget⟩ := mapM_lookup hval
      refine ⟨values, h.symm, hlen, fun n t ht => ?_⟩
      obtain ⟨y, hy, hf⟩ := hget n t ht
      obtain ⟨f, hf', rfl⟩ := Option.map_eq_some_iff.1 hf
      exact ⟨f, frequenciesAt_of_array hu hf', hy⟩

theorem scriptBandAxis_labels (distances : List (List ℝ)) (labels : List (List Char × List Char)) : scriptBandAxis distances (some labels) = none := by
  unfold scriptBandAxis
  cases distances.getLast?.bind fun l => l.getLast? with
  | none => rfl
  | some x =>
    simp only [Option.bind_eq_bind, Option.bind_some, scriptReplaceList, Option.bind_none, Option.bind_fun_none]

/-- **C136** (part: a path without labels): after any calls, the plot of the bands shows for each temperature tmin, tmin + tstep, … below tmax the bands along the path of the frequencies at this temperature
and the equilibrium volume interpolated at it (C119_volume). -/
theorem C136_gradient_partial (hu : UniformErrors tools.interp) (thermo : Thermo nq nb) (d : QhaFit ℝ Q nt nv nq nb) (tmin tmax : Option ℝ) (calls : List Call)
    (bandsOf : R → (Fin nq → Fin nb → ℝ) → B) (distances : B → List (List ℝ)) (p : QhaPath R) (t₀ t₁ dt : ℝ) (curves : List (ℝ × B))
    (h : plotBandGradient tools bandsOf distances p t₀ t₁ dt (after tools thermo calls (new d tmin tmax)) = some curves) :
    curves.map Prod.fst = (List.range ⌈(t₁ - t₀) / dt⌉.toNat).map (fun (n : ℕ) => t₀ + n * dt) ∧
      ∀ c ∈ curves, ∃ f, FrequenciesAt tools d c.1 (qhaVolumeAt p.temperatures p.volumes c.1) f ∧ c.2 = bandsOf p.ranges f := by
  unfold plotBandGradient at h
  obtain ⟨bands, hb, h⟩ := Option.bind_eq_some_iff.1 h
  obtain ⟨last, -, h⟩ := Option.bind_eq_some_iff.1 h
  obtain ⟨-, -, rfl⟩ := Option.map_eq_some_iff.1 h
  rw [(mapCalls_spec (P := Consistent tools d tmin tmax) (fun t s hs => atState_spec hs (bandsOf p.ranges) t (qhaVolumeAt p.temperatures p.volumes t)) (arange t₀ t₁ dt)
    (consistent_after thermo calls consistent_new)).1] at hb
  obtain ⟨hlen, hget⟩ := mapM_lookup hb
  refine ⟨by rw [List.map_fst_zip (by rw [hlen])]; rfl, fun c hc => ?_⟩
  obtain ⟨n, hn⟩ := List.getElem?_of_mem hc
  rw [List.getElem?_zip_eq_some] at hn
  obtain ⟨y, hy, hf⟩ := hget n c.1 hn.1
  obtain ⟨f, hf, hfy⟩ := Option.map_eq_some_iff.1 hf
  refine ⟨f, frequenciesAt_of_array hu hf, ?_⟩
  rw [hn.2, Option.some.injEq] at hy
  rw [hy, hfy]

/-- **C136**: when the plot of the bands is shown: there are no labels, there is a temperature, the frequencies at all temperatures exist and the bands of the last one have a last point. -/
theorem C136_gradient_shown (thermo : Thermo nq nb) (d : QhaFit ℝ Q nt nv nq nb) (tmin tmax : Option ℝ) (calls : List Call)
    (bandsOf : R → (Fin nq → Fin nb → ℝ) → B) (distances : B → List (List ℝ)) (hdist : ∀ b, ∃ l x, (distances b).getLast? = some l ∧ l.getLast? = some x) (p : QhaPath R) (t₀ t₁ dt : ℝ) :
    (plotBandGradient tools bandsOf distances p t₀ t₁ dt (after tools thermo calls (new d tmin tmax))).isSome ↔
      p.labels = none ∧ arange t₀ t₁ dt ≠ [] ∧ ∀ t ∈ arange t₀ t₁ dt, (totalFrequencyArray tools d t (some (qhaVolumeAt p.temperatures p.volumes t))).isSome := by
  have hax : ∀ b, (scriptBandAxis (distances b) p.labels).isSome ↔ p.labels = none := by
    intro b
    obtain ⟨l, x, hl, hx⟩ := hdist b
    cases hlab : p.labels with
    | some labels => simp [scriptBandAxis_labels]
    | none => simp [scriptBandAxis, hl, hx]
  have hmap : ∀ (g : ℝ → Option B) (l : List ℝ), (l.mapM g).isSome ↔ ∀ t ∈ l, (g t).isSome := by
    intro g l
    induction l with
    | nil => simp
    | cons t l ih =>
      rw [List.mapM_cons]
      cases hg : g t with
      | none => simp [hg]
      | some y =>
        simp only [Option.bind_eq_bind, Option.bind_some, List.mem_cons, forall_eq_or_imp, hg, Option.isSome_some, true_and, ← ih]
        cases l.mapM g <;> simp
  unfold plotBandGradient
  simp only
  rw [(mapCalls_spec (P := Consistent tools d tmin tmax) (fun t s hs => atState_spec hs (bandsOf p.ranges) t (qhaVolumeAt p.temperatures p.volumes t)) (arange t₀ t₁ dt)
    (consistent_after thermo calls consistent_new)).1]
  have hm := hmap (fun t => (totalFrequencyArray tools d t (some (qhaVolumeAt p.temperatures p.volumes t))).map (bandsOf p.ranges)) (arange t₀ t₁ dt)
  simp only [Option.isSome_map] at hm
  rw [← hm]
  cases hb : (arange t₀ t₁ dt).mapM (fun t => (totalFrequencyArray tools d t (some (qhaVolumeAt p.temperatures p.volumes t))).map (bandsOf p.ranges)) with
  | none => simp
  | some bands =>
    obtain ⟨hlen, -⟩ := mapM_lookup hb
    rw [Option.bind_some]
    cases hl : bands.getLast? with
    | none =>
      have : bands = [] := List.getLast?_eq_none_iff.1 hl
      subst this
      have : arange t₀ t₁ dt = [] := List.length_eq_zero_iff.1 (by simpa using hlen.symm)
      simp [this]
    | some b =>
      have hne : arange t₀ t₁ dt ≠ [] := by
        intro h0
        rw [h0] at hlen
        have : bands = [] := List.length_eq_zero_iff.1 (by simpa using hlen)
        subst this
        simp at hl
      rw [Option.bind_some, Option.isSome_map, hax b]
      simp [hne]

/-- **C136** (part: a path without labels, external data given): after any calls, the plot at one temperature shows the bands of the frequencies at this temperature and the equilibrium volume interpolated
at it, and the dots given. -/
theorem C136_pressure_partial (hu : UniformErrors tools.interp) (thermo : Thermo nq nb) (d : QhaFit ℝ Q nt nv nq nb) (tmin tmax : Option ℝ) (calls : List Call)
    (bandsOf : R → (Fin nq → Fin nb → ℝ) → B) (distances : B → List (List ℝ)) (p : QhaPath R) (t : ℝ) (external : Option (List (ℝ × ℝ))) (b : B) (dots : List (ℝ × ℝ))
    (h : plotBandPressure tools bandsOf distances p t external (after tools thermo calls (new d tmin tmax)) = some (b, dots)) :
    external = some dots ∧ ∃ f, FrequenciesAt tools d t (qhaVolumeAt p.temperatures p.volumes t) f ∧ b = bandsOf p.ranges f := by
  unfold plotBandPressure at h
  obtain ⟨b', hb, h⟩ := Option.bind_eq_some_iff.1 h
  obtain ⟨-, -, h⟩ := Option.bind_eq_some_iff.1 h
  obtain ⟨ds, hds, h⟩ := Option.map_eq_some_iff.1 h
  obtain ⟨rfl, rfl⟩ := Prod.mk.inj h
  exact ⟨hds, C136_state hu thermo d tmin tmax calls (bandsOf p.ranges) t _ b' hb⟩

/-- **C136** fails: with labels on the path no band plot is shown (AttributeError). -/
theorem C136_labels_violated (bandsOf : R → (Fin nq → Fin nb → ℝ) → B) (distances : B → List (List ℝ)) (p : QhaPath R) (hl : p.labels ≠ none) (t₀ t₁ dt t : ℝ)
    (external : Option (List (ℝ × ℝ))) (s : QhaObj Q nt nv nq nb) :
    plotBandGradient tools bandsOf distances p t₀ t₁ dt s = none ∧ plotBandPressure tools bandsOf distances p t external s = none := by
  obtain ⟨labels, hl⟩ := Option.ne_none_iff_exists'.1 hl
  unfold plotBandGradient plotBandPressure
  simp only [hl, scriptBandAxis_labels, Option.map_none, Option.bind_none, Option.bind_fun_none, and_self]

/-- **C136** fails: without external data (the default) the plot at one temperature is not shown (TypeError). -/
theorem C136_external_violated (bandsOf : R → (Fin nq → Fin nb → ℝ) → B) (distances : B → List (List ℝ)) (p : QhaPath R) (t : ℝ) (s : QhaObj Q nt nv nq nb) :
    plotBandPressure tools bandsOf distances p t none s = none := by
  unfold plotBandPressure
  simp only [Option.map_none, Option.bind_fun_none]

/-- A path without labels for the examples; bands are the frequency itself. -/
private noncomputable def flatPath : QhaPath Unit := ⟨[0, 300], [10, 11], (), none⟩

example : ((after constTools (fun _ _ => (0, 0, 0)) [] (new flatFit none none)).plotDensity constTools (fun f => f 0 0) (-1) 300).1 = some 3 := by
  simp [plotDensity, volumeNumber, atState, getTotalFrequencies, getTotalShifts, getFittedT, getInterpolatedV, getShiftMatrixV, getShiftMatrixT, getHarmonic, flatFit, constTools, new, after, allEntries,
    List.finRange_succ]

example : (plotBandGradient constTools (fun _ f => f 0 0) (fun _ => [[0, 1]]) flatPath 300 320 10 (after constTools (fun _ _ => (0, 0, 0)) [] (new flatFit none none))).isSome := by
  rw [C136_gradient_shown _ _ _ _ _ _ _ (fun _ => ⟨[0, 1], 1, rfl, rfl⟩)]
  refine ⟨rfl, ?_, fun t _ => ?_⟩
  · norm_num [arange]
  · simp [totalFrequencyArray, totalShiftArray, shiftArray, flatFit, constTools, allEntries]

end Verif
