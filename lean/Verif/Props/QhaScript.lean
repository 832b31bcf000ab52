import Verif.Model.QhaScript
import Verif.Props.Qha
import Verif.Props.FFTPower
import Verif.Props.Fitdata

/-! # C119: the quasi-harmonic script -/

set_option autoImplicit false
set_option linter.unusedSectionVars false

namespace Verif

namespace QhaObj
variable {Q : Type*} {nt nv nq nb : ℕ} (tools : QhaTools ℝ)

/-- The shifts of the volume files (C96) as one array; `none`: no reference temperature. -/
noncomputable def shiftArray (d : QhaFit ℝ Q nt nv nq nb) : Option (Fin nb → Fin nq → Fin (nv + 1) → ℝ) := d.refTemperature.map fun r b q i => (d.filesV i q).2 b - (d.fittedT tools r q b + d.harmonic q b)

/-- What the attributes of the object may contain during a run. -/
structure Consistent (d : QhaFit ℝ Q nt nv nq nb) (tmin tmax : Option ℝ) (s : QhaObj Q nt nv nq nb) : Prop where
  data : s.data = d
  tmin : s.tmin = tmin ∨ s.tmin = some (tmin.getD (d.temperatures 0))
  tmax : s.tmax = tmax ∨ s.tmax = some (tmax.getD (d.temperatures (Fin.last nt)))
  eig : s.eig = none ∨ s.eig = some d.harmonic
  matT : s.matT = none ∨ s.matT = some d.shiftT
  matV : s.matV = none ∨ s.matV = shiftArray tools d
  polyT : s.polyT = none ∨ s.polyT = some fun b q => tools.polyfit (List.ofFn fun i => (d.temperatures i, d.shiftT b q i)) d.order
  polyV : s.polyV = none ∨ s.polyV = (shiftArray tools d).map fun m b q => tools.polyfit (List.ofFn fun i => (d.volumes i, m b q i)) d.order

variable {tools} {d : QhaFit ℝ Q nt nv nq nb} {tmin tmax : Option ℝ} {s : QhaObj Q nt nv nq nb}

theorem consistent_new : Consistent tools d tmin tmax (new d tmin tmax) :=
  ⟨rfl, Or.inl rfl, Or.inl rfl, Or.inl rfl, Or.inl rfl, Or.inl rfl, Or.inl rfl, Or.inl rfl⟩

theorem getRange_spec (hs : Consistent tools d tmin tmax s) (step : ℝ) :
    (s.getRange step).1 = arange (tmin.getD (d.temperatures 0)) (tmax.getD (d.temperatures (Fin.last nt))) step ∧ Consistent tools d tmin tmax (s.getRange step).2 := by
  obtain ⟨h1, h2, h3, h4, h5, h6, h7, h8⟩ := hs
  obtain ⟨data, a, b, eig, matT, matV, polyT, polyV⟩ := s
  simp only at h1 h2 h3 h4 h5 h6 h7 h8
  subst h1
  have ea : ∀ o : Option ℝ, (o = tmin ∨ o = some (tmin.getD (data.temperatures 0))) → o.getD (data.temperatures 0) = tmin.getD (data.temperatures 0) := by
    rintro o (rfl | rfl) <;> rfl
  have eb : ∀ o : Option ℝ, (o = tmax ∨ o = some (tmax.getD (data.temperatures (Fin.last nt)))) → o.getD (data.temperatures (Fin.last nt)) = tmax.getD (data.temperatures (Fin.last nt)) := by
    rintro o (rfl | rfl) <;> rfl
  have ha := ea _ h2
  have hb := eb _ h3
  unfold getRange
  cases a with
  | none =>
    cases b with
    | none =>
      simp only [Option.getD_none] at ha hb
      simp only [if_true, Option.getD_some]
      exact ⟨by rw [← ha, ← hb], ⟨rfl, Or.inr (congrArg some ha), Or.inr (congrArg some hb), h4, h5, h6, h7, h8⟩⟩
    | some b =>
      simp only [Option.getD_none, Option.getD_some] at ha hb
      simp only [if_true, Option.getD_some, reduceCtorEq, if_false]
      exact ⟨by rw [← ha, ← hb], ⟨rfl, Or.inr (congrArg some ha), h3, h4, h5, h6, h7, h8⟩⟩
  | some a =>
    cases b with
    | none =>
      simp only [Option.getD_none, Option.getD_some] at ha hb
      simp only [if_true, Option.getD_some, reduceCtorEq, if_false]
      exact ⟨by rw [← ha, ← hb], ⟨rfl, h2, Or.inr (congrArg some hb), h4, h5, h6, h7, h8⟩⟩
    | some b =>
      simp only [Option.getD_some] at ha hb
      simp only [Option.getD_some, reduceCtorEq, if_false]
      exact ⟨by rw [← ha, ← hb], ⟨rfl, h2, h3, h4, h5, h6, h7, h8⟩⟩

theorem getHarmonic_spec (hs : Consistent tools d tmin tmax s) : s.getHarmonic.1 = d.harmonic ∧ Consistent tools d tmin tmax s.getHarmonic.2 := by
  unfold getHarmonic
  rcases hs.eig with h | h <;> rw [h]
  · refine ⟨by rw [hs.data]; rfl, ?_⟩
    exact { hs with eig := Or.inr (by simp only [hs.data]; rfl) }
  · exact ⟨rfl, hs⟩

theorem getShiftMatrixT_spec (hs : Consistent tools d tmin tmax s) : s.getShiftMatrixT.1 = d.shiftT ∧ Consistent tools d tmin tmax s.getShiftMatrixT.2 := by
  unfold getShiftMatrixT
  rcases hs.matT with h | h <;> rw [h]
  · obtain ⟨e, hc⟩ := getHarmonic_spec hs
    have key : (fun b q i => (s.getHarmonic.2.data.filesT i q).2 b - s.getHarmonic.1 q b) = d.shiftT := by
      rw [hc.data, e]; rfl
    exact ⟨key, { hc with matT := Or.inr (congrArg some key) }⟩
  · exact ⟨rfl, hs⟩

theorem getFittedT_spec (hs : Consistent tools d tmin tmax s) (t : Option ℝ) :
    (s.getFittedT tools t).1 = t.map (fun t q b => d.fittedT tools t q b) ∧ Consistent tools d tmin tmax (s.getFittedT tools t).2 := by
  obtain ⟨e, hc⟩ := getShiftMatrixT_spec hs
  unfold getFittedT
  rcases hc.polyT with h | h
  · simp only [h, e, hc.data]
    exact ⟨rfl, { hc with data := rfl, polyT := Or.inr rfl }⟩
  · simp only [h]
    exact ⟨rfl, hc⟩

theorem getInterpolatedT_spec (hs : Consistent tools d tmin tmax s) (t : ℝ) :
    (s.getInterpolatedT tools t).1 = allEntries (d.interpolatedT tools t) ∧ Consistent tools d tmin tmax (s.getInterpolatedT tools t).2 := by
  obtain ⟨e, hc⟩ := getShiftMatrixT_spec hs
  unfold getInterpolatedT
  simp only [e, hc.data]
  exact ⟨rfl, hc⟩

theorem getShiftMatrixV_spec (hs : Consistent tools d tmin tmax s) : (s.getShiftMatrixV tools).1 = shiftArray tools d ∧ Consistent tools d tmin tmax (s.getShiftMatrixV tools).2 := by
  unfold getShiftMatrixV
  have hno : s.matV = none → ∀ r : (Option (Fin nb → Fin nq → Fin (nv + 1) → ℝ) × QhaObj Q nt nv nq nb),
      r = (match s.getHarmonic.2.getFittedT tools s.getHarmonic.2.data.refTemperature with
        | (none, s) => (none, s)
        | (some f, s') => (some (fun b q i => (s'.data.filesV i q).2 b - (f q b + s.getHarmonic.1 q b)), { s' with matV := some fun b q i => (s'.data.filesV i q).2 b - (f q b + s.getHarmonic.1 q b) })) →
      r.1 = shiftArray tools d ∧ Consistent tools d tmin tmax r.2 := by
    rintro - r rfl
    obtain ⟨e, hc⟩ := getHarmonic_spec hs
    obtain ⟨e', hc'⟩ := getFittedT_spec hc s.getHarmonic.2.data.refTemperature
    rw [hc.data] at e' hc' ⊢
    cases hr : d.refTemperature with
    | none =>
      rw [hr] at e' hc'
      obtain ⟨v, s', hv⟩ : ∃ v s', s.getHarmonic.2.getFittedT tools none = (v, s') := ⟨_, _, rfl⟩
      rw [hv] at e' hc' ⊢
      simp only [Option.map_none] at e'
      subst e'
      exact ⟨by simp [shiftArray, hr], hc'⟩
    | some r =>
      rw [hr] at e' hc'
      obtain ⟨v, s', hv⟩ : ∃ v s', s.getHarmonic.2.getFittedT tools (some r) = (v, s') := ⟨_, _, rfl⟩
      rw [hv] at e' hc' ⊢
      simp only [Option.map_some] at e'
      subst e'
      have key : some (fun b q i => (s'.data.filesV i q).2 b - (d.fittedT tools r q b + s.getHarmonic.1 q b)) = shiftArray tools d := by
        rw [e, show s'.data = d from hc'.data]
        simp [shiftArray, hr]
      exact ⟨key, { hc' with matV := Or.inr key }⟩
  rcases hs.matV with h | h
  · rw [h]
    exact hno h _ rfl
  · cases hm : s.matV with
    | some m => exact ⟨(hm.symm.trans h), hs⟩
    | none => exact hno hm _ rfl

theorem getFittedV_spec (hs : Consistent tools d tmin tmax s) (v : ℝ) :
    (s.getFittedV tools v).1 = (shiftArray tools d).map (fun m q b => (tools.polyfit (List.ofFn fun i => (d.volumes i, m b q i)) d.order).eval v) ∧ Consistent tools d tmin tmax (s.getFittedV tools v).2 := by
  obtain ⟨e, hc⟩ := getShiftMatrixV_spec hs
  unfold getFittedV
  obtain ⟨m, s', hm⟩ : ∃ m s', s.getShiftMatrixV tools = (m, s') := ⟨_, _, rfl⟩
  rw [hm] at e hc ⊢
  simp only at e hc
  subst e
  cases ha : shiftArray tools d with
  | none => exact ⟨rfl, hc⟩
  | some m =>
    simp only [Option.map_some]
    cases hp : s'.polyV with
    | none =>
      simp only [hc.data]
      exact ⟨trivial, { hc with data := rfl, polyV := Or.inr (by rw [ha]; rfl) }⟩
    | some p =>
      have hp' := hc.polyV
      rw [hp, ha] at hp'
      simp only [reduceCtorEq, Option.map_some, false_or, Option.some.injEq] at hp'
      subst hp'
      exact ⟨rfl, hc⟩

theorem getInterpolatedV_spec (hs : Consistent tools d tmin tmax s) (v : ℝ) :
    (s.getInterpolatedV tools v).1 = (shiftArray tools d).bind (fun m => allEntries fun q b => tools.interp (List.ofFn fun i => (d.volumes i, m b q i)) v) ∧ Consistent tools d tmin tmax (s.getInterpolatedV tools v).2 := by
  obtain ⟨e, hc⟩ := getShiftMatrixV_spec hs
  unfold getInterpolatedV
  obtain ⟨m, s', hm⟩ : ∃ m s', s.getShiftMatrixV tools = (m, s') := ⟨_, _, rfl⟩
  rw [hm] at e hc ⊢
  simp only at e hc
  subst e
  cases ha : shiftArray tools d with
  | none => exact ⟨rfl, hc⟩
  | some m =>
    simp only [hc.data]
    exact ⟨rfl, hc⟩

/-- The total shifts as a function of the data. -/
noncomputable def totalShiftArray (tools : QhaTools ℝ) (d : QhaFit ℝ Q nt nv nq nb) (volume : Option ℝ) (t : ℝ) (i j : Bool) : Option (Fin nq → Fin nb → ℝ) :=
  let v := volume.getD (d.volumes 0)
  (if i then allEntries (d.interpolatedT tools t) else some (d.fittedT tools t)).bind fun a =>
    (if j then (shiftArray tools d).map (fun m q b => (tools.polyfit (List.ofFn fun i => (d.volumes i, m b q i)) d.order).eval v)
      else (shiftArray tools d).bind (fun m => allEntries fun q b => tools.interp (List.ofFn fun i => (d.volumes i, m b q i)) v)).map fun w q b => a q b + w q b

theorem getTotalShifts_spec (hs : Consistent tools d tmin tmax s) (volume : Option ℝ) (t : ℝ) (i j : Bool) :
    (s.getTotalShifts tools volume t i j).1 = totalShiftArray tools d volume t i j ∧ Consistent tools d tmin tmax (s.getTotalShifts tools volume t i j).2 := by
  have h1 : ∃ a s', (if i then s.getInterpolatedT tools t else s.getFittedT tools (some t)) = (a, s') ∧ a = (if i then allEntries (d.interpolatedT tools t) else some (d.fittedT tools t)) ∧ Consistent tools d tmin tmax s' := by
    cases i with
    | true => exact ⟨_, _, rfl, (getInterpolatedT_spec hs t).1, (getInterpolatedT_spec hs t).2⟩
    | false => exact ⟨_, _, rfl, (getFittedT_spec hs (some t)).1, (getFittedT_spec hs (some t)).2⟩
  obtain ⟨a, s', e1, ea, hc⟩ := h1
  unfold getTotalShifts totalShiftArray
  rw [← ea, hs.data]
  simp only [e1]
  cases a with
  | none => exact ⟨rfl, hc⟩
  | some a =>
    simp only [Option.bind_some]
    have h2 : ∃ w s'', (if j then s'.getFittedV tools (volume.getD (d.volumes 0)) else s'.getInterpolatedV tools (volume.getD (d.volumes 0))) = (w, s'') ∧
        w = (if j then (shiftArray tools d).map (fun m q b => (tools.polyfit (List.ofFn fun i => (d.volumes i, m b q i)) d.order).eval (volume.getD (d.volumes 0)))
          else (shiftArray tools d).bind (fun m => allEntries fun q b => tools.interp (List.ofFn fun i => (d.volumes i, m b q i)) (volume.getD (d.volumes 0)))) ∧ Consistent tools d tmin tmax s'' := by
      cases j with
      | true => exact ⟨_, _, rfl, (getFittedV_spec hc _).1, (getFittedV_spec hc _).2⟩
      | false => exact ⟨_, _, rfl, (getInterpolatedV_spec hc _).1, (getInterpolatedV_spec hc _).2⟩
    obtain ⟨w, s'', e2, ew, hc'⟩ := h2
    rw [← ew]
    simp only [e2]
    cases w with
    | none => exact ⟨rfl, hc'⟩
    | some w => exact ⟨rfl, hc'⟩

theorem getTotalFrequencies_spec (hs : Consistent tools d tmin tmax s) (t : ℝ) (volume : Option ℝ) :
    (s.getTotalFrequencies tools t volume).1 = (totalShiftArray tools d volume t false false).map (fun w q b => d.harmonic q b + w q b) ∧ Consistent tools d tmin tmax (s.getTotalFrequencies tools t volume).2 := by
  obtain ⟨e, hc⟩ := getTotalShifts_spec hs volume t false false
  unfold getTotalFrequencies
  obtain ⟨m, s', hm⟩ : ∃ m s', s.getTotalShifts tools volume t false false = (m, s') := ⟨_, _, rfl⟩
  rw [hm] at e hc ⊢
  simp only at e hc
  rw [← e]
  cases m with
  | none => exact ⟨rfl, hc⟩
  | some w =>
    obtain ⟨eh, hh⟩ := getHarmonic_spec hc
    simp only [eh]
    exact ⟨rfl, hh⟩

/-- The frequencies at a temperature and volume as a function of the data. -/
noncomputable def totalFrequencyArray (tools : QhaTools ℝ) (d : QhaFit ℝ Q nt nv nq nb) (t : ℝ) (volume : Option ℝ) : Option (Fin nq → Fin nb → ℝ) :=
  (totalShiftArray tools d volume t false false).map (fun w q b => d.harmonic q b + w q b)

theorem thermalLoop_spec (thermo : Thermo nq nb) (v : ℝ) (ts : List ℝ) (hs : Consistent tools d tmin tmax s) :
    (thermalLoop tools thermo v ts s).1 = ts.mapM (fun t => (totalFrequencyArray tools d t (some v)).map fun f => thermo f t) ∧ Consistent tools d tmin tmax (thermalLoop tools thermo v ts s).2 := by
  induction ts generalizing s with
  | nil => exact ⟨rfl, hs⟩
  | cons t ts ih =>
    obtain ⟨e, hc⟩ := getTotalFrequencies_spec hs t (some v)
    rw [thermalLoop, List.mapM_cons]
    obtain ⟨m, s', hm⟩ : ∃ m s', s.getTotalFrequencies tools t (some v) = (m, s') := ⟨_, _, rfl⟩
    rw [hm] at e hc ⊢
    simp only at e hc
    rw [totalFrequencyArray, ← e]
    cases m with
    | none => exact ⟨rfl, hc⟩
    | some f =>
      obtain ⟨e2, hc2⟩ := ih hc
      obtain ⟨l, s'', hl⟩ : ∃ l s'', thermalLoop tools thermo v ts s' = (l, s'') := ⟨_, _, rfl⟩
      rw [hl] at e2 hc2
      simp only at e2 hc2
      simp only [hl, ← e2]
      cases l with
      | none => exact ⟨rfl, hc2⟩
      | some l => exact ⟨rfl, hc2⟩

/-- The thermal properties at one volume as a function of the data. -/
noncomputable def thermalArrays (tools : QhaTools ℝ) (d : QhaFit ℝ Q nt nv nq nb) (thermo : Thermo nq nb) (range : List ℝ) (v : ℝ) : Option (List ℝ × List ℝ × List ℝ) :=
  (range.mapM (fun t => (totalFrequencyArray tools d t (some v)).map fun f => thermo f t)).map fun l => (l.map (·.1), l.map (·.2.1), l.map (·.2.2))

theorem getThermalProperties_spec (thermo : Thermo nq nb) (volume : Option ℝ) (hs : Consistent tools d tmin tmax s) :
    (s.getThermalProperties tools thermo volume).1 = thermalArrays tools d thermo (arange (tmin.getD (d.temperatures 0)) (tmax.getD (d.temperatures (Fin.last nt))) 10) (volume.getD (d.volumes 0)) ∧
      Consistent tools d tmin tmax (s.getThermalProperties tools thermo volume).2 := by
  obtain ⟨e, hc⟩ := getRange_spec hs 10
  obtain ⟨e2, hc2⟩ := thermalLoop_spec thermo (volume.getD (d.volumes 0)) (s.getRange 10).1 hc
  unfold getThermalProperties thermalArrays
  rw [hs.data]
  obtain ⟨m, s', hm⟩ : ∃ m s', thermalLoop tools thermo (volume.getD (d.volumes 0)) (s.getRange 10).1 (s.getRange 10).2 = (m, s') := ⟨_, _, rfl⟩
  rw [hm] at e2 hc2
  simp only at e2 hc2
  simp only [hm]
  rw [← e, ← e2]
  cases m with
  | none => exact ⟨rfl, hc2⟩
  | some l => exact ⟨rfl, hc2⟩

theorem call_spec (thermo : Thermo nq nb) (hs : Consistent tools d tmin tmax s) (c : Call) :
    (s.call tools thermo c).1 = ((new d tmin tmax).call tools thermo c).1 ∧ Consistent tools d tmin tmax (s.call tools thermo c).2 := by
  have h0 : Consistent tools d tmin tmax (new d tmin tmax) := consistent_new
  cases c with
  | range step => exact ⟨congrArg Reply.numbers ((getRange_spec hs step).1.trans (getRange_spec h0 step).1.symm), (getRange_spec hs step).2⟩
  | harmonic => exact ⟨congrArg Reply.harmonic ((getHarmonic_spec hs).1.trans (getHarmonic_spec h0).1.symm), (getHarmonic_spec hs).2⟩
  | matrixT => exact ⟨congrArg Reply.matrixT ((getShiftMatrixT_spec hs).1.trans (getShiftMatrixT_spec h0).1.symm), (getShiftMatrixT_spec hs).2⟩
  | fittedT t => exact ⟨congrArg Reply.array ((getFittedT_spec hs (some t)).1.trans (getFittedT_spec h0 (some t)).1.symm), (getFittedT_spec hs (some t)).2⟩
  | interpolatedT t => exact ⟨congrArg Reply.array ((getInterpolatedT_spec hs t).1.trans (getInterpolatedT_spec h0 t).1.symm), (getInterpolatedT_spec hs t).2⟩
  | matrixV => exact ⟨congrArg Reply.matrixV ((getShiftMatrixV_spec hs).1.trans (getShiftMatrixV_spec h0).1.symm), (getShiftMatrixV_spec hs).2⟩
  | fittedV v => exact ⟨congrArg Reply.array ((getFittedV_spec hs v).1.trans (getFittedV_spec h0 v).1.symm), (getFittedV_spec hs v).2⟩
  | interpolatedV v => exact ⟨congrArg Reply.array ((getInterpolatedV_spec hs v).1.trans (getInterpolatedV_spec h0 v).1.symm), (getInterpolatedV_spec hs v).2⟩
  | totalShifts v t i j => exact ⟨congrArg Reply.array ((getTotalShifts_spec hs v t i j).1.trans (getTotalShifts_spec h0 v t i j).1.symm), (getTotalShifts_spec hs v t i j).2⟩
  | totalFrequencies t v => exact ⟨congrArg Reply.array ((getTotalFrequencies_spec hs t v).1.trans (getTotalFrequencies_spec h0 t v).1.symm), (getTotalFrequencies_spec hs t v).2⟩
  | thermal v => exact ⟨congrArg Reply.thermal ((getThermalProperties_spec thermo v hs).1.trans (getThermalProperties_spec thermo v h0).1.symm), (getThermalProperties_spec thermo v hs).2⟩

theorem consistent_after (thermo : Thermo nq nb) (calls : List Call) (hs : Consistent tools d tmin tmax s) : Consistent tools d tmin tmax (after tools thermo calls s) := by
  induction calls generalizing s with
  | nil => exact hs
  | cons c calls ih => exact ih (call_spec thermo hs c).2

/-- Specification of `interp1d`: whether it raises depends on the abscissae and the point, not on the values. -/
def UniformErrors (interp : List (ℝ × ℝ) → ℝ → Option ℝ) : Prop := ∀ p p' : List (ℝ × ℝ), p.map (·.1) = p'.map (·.1) → ∀ x, (interp p x).isSome = (interp p' x).isSome

theorem allEntries_map {f : Fin nq → Fin nb → Option ℝ} (h : ∀ q b q' b', (f q b).isSome = (f q' b').isSome) (q : Fin nq) (b : Fin nb) : (allEntries f).map (fun a => a q b) = f q b := by
  unfold allEntries
  split_ifs with h'
  · simp
  · have : ¬ (f q b).isSome := fun hq => h' fun q' b' => by rw [← h q b q' b']; exact hq
    simp only [Bool.not_eq_true, Option.isSome_eq_false_iff, Option.isNone_iff_eq_none] at this
    rw [this]; rfl

theorem totalShiftArray_entry (hu : UniformErrors tools.interp) (v : Option ℝ) (t : ℝ) (i j : Bool) (q : Fin nq) (b : Fin nb) :
    (totalShiftArray tools d v t i j).map (fun w => w q b) = d.totalShift tools v t i j q b := by
  have hT : (allEntries (d.interpolatedT tools t)).map (fun a => a q b) = d.interpolatedT tools t q b := allEntries_map (fun q b q' b' => hu _ _ (by simp [List.map_ofFn, Function.comp_def]) t) q b
  have hV : ((shiftArray tools d).bind fun m => allEntries fun q b => tools.interp (List.ofFn fun i => (d.volumes i, m b q i)) (v.getD (d.volumes 0))).map (fun a => a q b) = d.interpolatedV tools (v.getD (d.volumes 0)) q b := by
    unfold shiftArray QhaFit.interpolatedV QhaFit.shiftV
    cases d.refTemperature with
    | none => rfl
    | some r =>
      simp only [Option.map_some, Option.bind_some]
      exact allEntries_map (fun q b q' b' => hu _ _ (by simp [List.map_ofFn, Function.comp_def]) _) q b
  have hF : ((shiftArray tools d).map fun m q b => (tools.polyfit (List.ofFn fun i => (d.volumes i, m b q i)) d.order).eval (v.getD (d.volumes 0))).map (fun a => a q b) = d.fittedV tools (v.getD (d.volumes 0)) q b := by
    unfold shiftArray QhaFit.fittedV QhaFit.shiftV
    cases d.refTemperature <;> rfl
  unfold totalShiftArray QhaFit.totalShift
  simp only
  rw [← hT, ← hV, ← hF]
  cases i <;> cases j <;> simp only [if_true, if_false, Bool.false_eq_true, Option.bind_some, Option.map_map, Function.comp_def]
  · cases allEntries (d.interpolatedT tools t) with
    | none => rfl
    | some a => simp [Function.comp_def]
  · cases allEntries (d.interpolatedT tools t) with
    | none => rfl
    | some a => simp [Function.comp_def]

end QhaObj

section object
open QhaObj
variable {Q : Type*} {nt nv nq nb : ℕ}

/-- **C119** (history): whatever methods of the fitting object were called before, in whatever order and whether they raised or not, each call returns what it returns on a new object made with the same arguments. -/
theorem C119_history (tools : QhaTools ℝ) (thermo : Thermo nq nb) (d : QhaFit ℝ Q nt nv nq nb) (tmin tmax : Option ℝ) (calls : List Call) (c : Call) :
    ((after tools thermo calls (new d tmin tmax)).call tools thermo c).1 = ((new d tmin tmax).call tools thermo c).1 := (call_spec thermo (consistent_after thermo calls consistent_new) c).1

/-- **C119** (values): the shifts and frequencies returned, after any calls, are entry by entry those of C96. -/
theorem C119_values (tools : QhaTools ℝ) (hu : UniformErrors tools.interp) (thermo : Thermo nq nb) (d : QhaFit ℝ Q nt nv nq nb) (tmin tmax : Option ℝ) (calls : List Call) (v : Option ℝ) (t : ℝ) (i j : Bool) (q : Fin nq) (b : Fin nb) :
    (((after tools thermo calls (new d tmin tmax)).getTotalShifts tools v t i j).1.map fun w => w q b) = d.totalShift tools v t i j q b ∧
    (((after tools thermo calls (new d tmin tmax)).getTotalFrequencies tools t v).1.map fun w => w q b) = d.totalFrequency tools t v q b := by
  have hc : Consistent tools d tmin tmax (after tools thermo calls (new d tmin tmax)) := consistent_after thermo calls consistent_new
  refine ⟨by rw [(getTotalShifts_spec hc v t i j).1, totalShiftArray_entry hu], ?_⟩
  rw [(getTotalFrequencies_spec hc t v).1, QhaFit.totalFrequency, ← totalShiftArray_entry hu]
  simp [Option.map_map, Function.comp_def]

/-- C119 is violated by the public attribute `ref_temperature`: a new value is ignored once the shifts of the volumes were calculated, so that they differ from those of an object made with the new value by the change of the fitted shift. -/
theorem C119_reference_violated (tools : QhaTools ℝ) (thermo : Thermo nq nb) (d : QhaFit ℝ Q nt nv nq nb) (tmin tmax : Option ℝ) (r r' : ℝ) (hr : d.refTemperature = some r) (b : Fin nb) (q : Fin nq) (i : Fin (nv + 1)) :
    ∃ m m', (((fun s : QhaObj Q nt nv nq nb => { s with data := { s.data with refTemperature := some r' } }) ((new d tmin tmax).call tools thermo .matrixV).2).getShiftMatrixV tools).1 = some m ∧
      ((new { d with refTemperature := some r' } tmin tmax).getShiftMatrixV tools).1 = some m' ∧ m b q i - m' b q i = d.fittedT tools r' q b - d.fittedT tools r q b := by
  obtain ⟨e, hc⟩ := getShiftMatrixV_spec (consistent_new (tools := tools) (d := d) (tmin := tmin) (tmax := tmax))
  refine ⟨fun b q i => (d.filesV i q).2 b - (d.fittedT tools r q b + d.harmonic q b), fun b q i => (d.filesV i q).2 b - (d.fittedT tools r' q b + d.harmonic q b), ?_, ?_, ?_⟩
  · have hm : ((new d tmin tmax).getShiftMatrixV tools).2.matV = some fun b q i => (d.filesV i q).2 b - (d.fittedT tools r q b + d.harmonic q b) := by
      have : ((new d tmin tmax).getShiftMatrixV tools).2.matV = ((new d tmin tmax).getShiftMatrixV tools).1 := by
        unfold getShiftMatrixV
        rw [show (new d tmin tmax).matV = none from rfl]
        simp only
        split
        · rename_i heq
          have h1 := (getFittedT_spec (getHarmonic_spec (consistent_new (tools := tools) (d := d) (tmin := tmin) (tmax := tmax))).2 (new d tmin tmax).getHarmonic.2.data.refTemperature).1
          rw [heq, show (new d tmin tmax).getHarmonic.2.data.refTemperature = some r from hr] at h1
          simp at h1
        · rfl
      rw [this, e, shiftArray, hr]; rfl
    change ((({ ((new d tmin tmax).getShiftMatrixV tools).2 with data := _ } : QhaObj Q nt nv nq nb)).getShiftMatrixV tools).1 = _
    rw [getShiftMatrixV]
    simp only [hm]
  · rw [(getShiftMatrixV_spec consistent_new).1]; rfl
  · ring

end object

section script
variable {Q : Type} {nt nv nq nb : ℕ} {tools : QhaTools ℝ}
open QhaObj

theorem qhaVolumeLoop_spec (thermo : Thermo nq nb) {d : QhaFit ℝ Q nt nv nq nb} {tmin tmax : Option ℝ} (ve : List (ℝ × ℝ)) {s : QhaObj Q nt nv nq nb} (hs : Consistent tools d tmin tmax s) :
    (qhaVolumeLoop tools thermo ve s).1 = (ve.mapM fun p => thermalArrays tools d thermo (arange (tmin.getD (d.temperatures 0)) (tmax.getD (d.temperatures (Fin.last nt))) 10) p.1).map (fun l => (l.map (·.1), l.map (·.2.1), l.map (·.2.2))) ∧
      Consistent tools d tmin tmax (qhaVolumeLoop tools thermo ve s).2 := by
  induction ve generalizing s with
  | nil => exact ⟨rfl, hs⟩
  | cons p ve ih =>
    obtain ⟨v, e⟩ := p
    obtain ⟨e1, hc⟩ := getThermalProperties_spec thermo (some v) hs
    rw [qhaVolumeLoop, List.mapM_cons]
    obtain ⟨m, s', hm⟩ : ∃ m s', s.getThermalProperties tools thermo (some v) = (m, s') := ⟨_, _, rfl⟩
    rw [hm] at e1 hc ⊢
    simp only [Option.getD_some] at e1 hc ⊢
    rw [← e1]
    cases m with
    | none => exact ⟨rfl, hc⟩
    | some f =>
      obtain ⟨e2, hc2⟩ := ih hc
      obtain ⟨l, s'', hl⟩ : ∃ l s'', qhaVolumeLoop tools thermo ve s' = (l, s'') := ⟨_, _, rfl⟩
      rw [hl] at e2 hc2
      simp only at e2 hc2
      obtain ⟨f1, f2, f3⟩ := f
      simp only [hl]
      rw [e2]
      cases hl2 : (ve.mapM fun p => thermalArrays tools d thermo (arange (tmin.getD (d.temperatures 0)) (tmax.getD (d.temperatures (Fin.last nt))) 10) p.1) with
      | none => exact ⟨by simp, hc2⟩
      | some l => exact ⟨by simp, hc2⟩

theorem mapM_lookup {α β : Type} {f : α → Option β} : ∀ {l : List α} {r : List β}, l.mapM f = some r → r.length = l.length ∧ ∀ (i : ℕ) (x : α), l[i]? = some x → ∃ y, r[i]? = some y ∧ f x = some y := by
  intro l r h
  have h := (mapM_eq_some_iff f l r).1 h
  induction h with
  | nil => exact ⟨rfl, fun i x hx => by simp at hx⟩
  | cons hab _ ih =>
    rename_i a b l r _
    refine ⟨by simp [(ih ((mapM_eq_some_iff f l r).2 ‹_›)).1], fun i x hx => ?_⟩
    cases i with
    | zero => exact ⟨b, rfl, by simp at hx; exact hx ▸ hab⟩
    | succ i => exact (ih ((mapM_eq_some_iff f l r).2 ‹_›)).2 i x (by simpa using hx)

/-- The temperatures of the script: from `tmin` (or the first temperature) to the last one of `-temperatures`, step 10 K. -/
noncomputable def qhaTemperatures (args : QhaArgs Q nt nv nq nb) (tmin : Option ℝ) : List ℝ := arange (tmin.getD (args.temperatures 0)) (args.temperatures (Fin.last nt)) 10

/-- The transposed array of one thermal property has, at temperature `i` and volume `j`, the value of that volume and temperature. -/
theorem npTranspose_entry {α : Type} (n : ℕ) (l : List α) (rows : List (List ℝ)) (hl : rows.length = l.length) (hne : l ≠ []) (hrow : ∀ row ∈ rows, row.length = n) :
    (npTranspose rows).length = n ∧ ∀ i < n, ∀ (j : ℕ) (row : List ℝ), rows[j]? = some row → ∃ r, (npTranspose rows)[i]? = some r ∧ r.length = l.length ∧ r[j]? = row[i]? := by
  have h0 : (rows.headD []).length = n := by
    cases rows with
    | nil => simp at hl; exact absurd (List.length_eq_zero_iff.1 hl.symm) hne
    | cons r rows => exact hrow r (by simp)
  unfold npTranspose
  rw [h0]
  refine ⟨by simp, fun i hi j row hj => ⟨rows.map fun row => row.getD i 0, by simp [hi], by simp [hl], ?_⟩⟩
  rw [List.getElem?_map, hj, Option.map_some, List.getD_eq_getElem?_getD]
  have : i < row.length := by rw [hrow row (List.mem_of_getElem? hj)]; exact hi
  rw [List.getElem?_eq_getElem this]; rfl

theorem thermalArrays_entry (hu : UniformErrors tools.interp) (thermo : Thermo nq nb) {d : QhaFit ℝ Q nt nv nq nb} {range : List ℝ} {v : ℝ} {a b c : List ℝ} (h : thermalArrays tools d thermo range v = some (a, b, c)) :
    a.length = range.length ∧ b.length = range.length ∧ c.length = range.length ∧ ∀ (i : ℕ) (t : ℝ), range[i]? = some t →
      ∃ f : Fin nq → Fin nb → ℝ, (∀ q k, d.totalFrequency tools t (some v) q k = some (f q k)) ∧ a[i]? = some (thermo f t).1 ∧ b[i]? = some (thermo f t).2.1 ∧ c[i]? = some (thermo f t).2.2 := by
  unfold thermalArrays at h
  cases hm : range.mapM (fun t => (totalFrequencyArray tools d t (some v)).map fun f => thermo f t) with
  | none => rw [hm] at h; simp at h
  | some l =>
    rw [hm] at h
    simp only [Option.map_some, Option.some.injEq, Prod.mk.injEq] at h
    obtain ⟨rfl, rfl, rfl⟩ := h
    obtain ⟨hlen, hget⟩ := mapM_lookup hm
    refine ⟨by simp [hlen], by simp [hlen], by simp [hlen], fun i t hi => ?_⟩
    obtain ⟨y, hy, hf⟩ := hget i t hi
    cases ha : totalFrequencyArray tools d t (some v) with
    | none => rw [ha] at hf; simp at hf
    | some f =>
      rw [ha] at hf
      simp only [Option.map_some, Option.some.injEq] at hf
      subst hf
      refine ⟨f, fun q k => ?_, by simp [List.getElem?_map, hy], by simp [List.getElem?_map, hy], by simp [List.getElem?_map, hy]⟩
      rw [QhaFit.totalFrequency, ← totalShiftArray_entry hu]
      unfold totalFrequencyArray at ha
      have := congrArg (Option.map fun w => w q k) ha
      simpa [Option.map_map, Function.comp_def] using this

/-- **C119** (script): what is given to `PhonopyQHA` when the script calculates it. The volumes and energies are those of the `-ev` file, the temperatures go up in steps of 10 K and the last one is `t_max`; the entry of each thermal property in the
row of a temperature and the column of a volume is phonopy's value at that temperature for the frequencies (C96) at that temperature and volume. -/
theorem C119_script (tools : QhaTools ℝ) (hu : UniformErrors tools.interp) (thermo : Thermo nq nb) (args : QhaArgs Q nt nv nq nb) (phonons : Q → Fin nb → ℝ) (tmin : Option ℝ) (disk : QhaDisk)
    (inp : QhaInput) (disk' : QhaDisk) (s : QhaObj Q nt nv nq nb) (h : qhaScript tools thermo args phonons tmin false disk = some (inp, disk', s)) :
    inp.volumes = List.ofFn args.volumes ∧ inp.energies = List.ofFn args.energies ∧ inp.temperatures = qhaTemperatures args tmin ∧ inp.tMax = inp.temperatures.getLast? ∧ inp.temperatures ≠ [] ∧
    inp.freeEnergy.length = inp.temperatures.length ∧ inp.entropy.length = inp.temperatures.length ∧ inp.cv.length = inp.temperatures.length ∧
    ∀ (i : ℕ) (t : ℝ) (j : Fin (nv + 1)), inp.temperatures[i]? = some t →
      ∃ f : Fin nq → Fin nb → ℝ, (∀ q k, (args.fit phonons tmin).data.totalFrequency tools t (some (args.volumes j)) q k = some (f q k)) ∧
        (∃ row, inp.freeEnergy[i]? = some row ∧ row.length = nv + 1 ∧ row[j.val]? = some (thermo f t).1) ∧ (∃ row, inp.entropy[i]? = some row ∧ row.length = nv + 1 ∧ row[j.val]? = some (thermo f t).2.1) ∧
        ∃ row, inp.cv[i]? = some row ∧ row.length = nv + 1 ∧ row[j.val]? = some (thermo f t).2.2 := by
  have h0 : Consistent tools (args.fit phonons tmin).data tmin none (args.fit phonons tmin) := consistent_new
  obtain ⟨er, hr⟩ := getRange_spec h0 10
  obtain ⟨ev, hv⟩ := qhaVolumeLoop_spec thermo ((List.ofFn args.volumes).zip (List.ofFn args.energies)) hr
  unfold qhaScript at h
  simp only [Bool.false_eq_true, if_false] at h
  obtain ⟨m, s', hm⟩ : ∃ m s', qhaVolumeLoop tools thermo ((List.ofFn args.volumes).zip (List.ofFn args.energies)) ((args.fit phonons tmin).getRange 10).2 = (m, s') := ⟨_, _, rfl⟩
  rw [hm] at ev hv
  simp only [hm] at h ev hv
  have ht : ((args.fit phonons tmin).getRange 10).1 = qhaTemperatures args tmin := er
  have ht' : (s'.getRange 10).1 = qhaTemperatures args tmin := (getRange_spec hv 10).1
  cases m with
  | none => simp at h
  | some m =>
    obtain ⟨fs, es, cs⟩ := m
    simp only [ht, ht'] at h
    cases hl : (qhaTemperatures args tmin).getLast? with
    | none => rw [hl] at h; simp at h
    | some tm =>
      rw [hl] at h
      simp only [Option.bind_eq_bind, Option.bind_some, pure, Option.some.injEq, Prod.mk.injEq] at h
      obtain ⟨rfl, rfl, rfl⟩ := h
      have hne : qhaTemperatures args tmin ≠ [] := fun e => by rw [e] at hl; simp at hl
      have er' : arange (tmin.getD ((args.fit phonons tmin).data.temperatures 0)) ((none : Option ℝ).getD ((args.fit phonons tmin).data.temperatures (Fin.last nt))) 10 = qhaTemperatures args tmin := rfl
      rw [er'] at ev
      cases hmm : ((List.ofFn args.volumes).zip (List.ofFn args.energies)).mapM (fun p => thermalArrays tools (args.fit phonons tmin).data thermo (qhaTemperatures args tmin) p.1) with
      | none => rw [hmm] at ev; simp at ev
      | some l =>
        rw [hmm] at ev
        simp only [Option.map_some, Option.some.injEq, Prod.mk.injEq] at ev
        obtain ⟨rfl, rfl, rfl⟩ := ev
        obtain ⟨hlen, hget⟩ := mapM_lookup hmm
        have hlen' : l.length = nv + 1 := by rw [hlen]; simp
        have hzip : ∀ j : Fin (nv + 1), ((List.ofFn args.volumes).zip (List.ofFn args.energies))[j.val]? = some (args.volumes j, args.energies j) := fun j =>
          List.getElem?_zip_eq_some.2 ⟨by rw [List.getElem?_ofFn, dif_pos j.isLt], by rw [List.getElem?_ofFn, dif_pos j.isLt]⟩
        have hrows : ∀ x ∈ l, x.1.length = (qhaTemperatures args tmin).length ∧ x.2.1.length = (qhaTemperatures args tmin).length ∧ x.2.2.length = (qhaTemperatures args tmin).length := by
          intro x hx
          obtain ⟨j, hj, rfl⟩ := List.mem_iff_getElem.1 hx
          obtain ⟨y, hy, hf⟩ := hget j _ (hzip ⟨j, by omega⟩)
          rw [List.getElem?_eq_getElem hj] at hy
          obtain rfl := Option.some.inj hy
          obtain ⟨h1, h2, h3, -⟩ := thermalArrays_entry hu thermo hf
          exact ⟨h1, h2, h3⟩
        have hlne : l ≠ [] := fun e => by rw [e] at hlen'; simp at hlen'
        have t1 := npTranspose_entry (qhaTemperatures args tmin).length l (l.map (·.1)) (by simp) hlne (fun r hr => by obtain ⟨x, hx, rfl⟩ := List.mem_map.1 hr; exact (hrows x hx).1)
        have t2 := npTranspose_entry (qhaTemperatures args tmin).length l (l.map (·.2.1)) (by simp) hlne (fun r hr => by obtain ⟨x, hx, rfl⟩ := List.mem_map.1 hr; exact (hrows x hx).2.1)
        have t3 := npTranspose_entry (qhaTemperatures args tmin).length l (l.map (·.2.2)) (by simp) hlne (fun r hr => by obtain ⟨x, hx, rfl⟩ := List.mem_map.1 hr; exact (hrows x hx).2.2)
        refine ⟨rfl, rfl, rfl, hl.symm, hne, t1.1, t2.1, t3.1, fun i t j hi => ?_⟩
        obtain ⟨y, hy, hf⟩ := hget j _ (hzip j)
        obtain ⟨a, b, c⟩ := y
        obtain ⟨-, -, -, hg⟩ := thermalArrays_entry hu thermo hf
        obtain ⟨f, hff, ha, hb, hc⟩ := hg i t hi
        have hin : i < (qhaTemperatures args tmin).length := (List.getElem?_eq_some_iff.1 hi).1
        obtain ⟨r1, e1, n1, g1⟩ := t1.2 i hin j a (by simp [List.getElem?_map, hy])
        obtain ⟨r2, e2, n2, g2⟩ := t2.2 i hin j b (by simp [List.getElem?_map, hy])
        obtain ⟨r3, e3, n3, g3⟩ := t3.2 i hin j c (by simp [List.getElem?_map, hy])
        exact ⟨f, hff, ⟨r1, e1, n1.trans hlen', g1.trans ha⟩, ⟨r2, e2, n2.trans hlen', g2.trans hb⟩, ⟨r3, e3, n3.trans hlen', g3.trans hc⟩⟩

/-- **C119** (script, no exception): the script calculates its input if the frequencies of C96 are defined at all its temperatures and volumes and there is at least one temperature. -/
theorem C119_runs (tools : QhaTools ℝ) (hu : UniformErrors tools.interp) (thermo : Thermo (nq + 1) (nb + 1)) (args : QhaArgs Q nt nv (nq + 1) (nb + 1)) (phonons : Q → Fin (nb + 1) → ℝ) (tmin : Option ℝ) (disk : QhaDisk) (hne : qhaTemperatures args tmin ≠ [])
    (hdef : ∀ t ∈ qhaTemperatures args tmin, ∀ j q b, ((args.fit phonons tmin).data.totalFrequency tools t (some (args.volumes j)) q b).isSome) :
    (qhaScript tools thermo args phonons tmin false disk).isSome := by
  have h0 : Consistent tools (args.fit phonons tmin).data tmin none (args.fit phonons tmin) := consistent_new
  obtain ⟨er, hr⟩ := getRange_spec h0 10
  obtain ⟨ev, hv⟩ := qhaVolumeLoop_spec thermo ((List.ofFn args.volumes).zip (List.ofFn args.energies)) hr
  unfold qhaScript
  simp only [Bool.false_eq_true, if_false]
  obtain ⟨m, s', hm⟩ : ∃ m s', qhaVolumeLoop tools thermo ((List.ofFn args.volumes).zip (List.ofFn args.energies)) ((args.fit phonons tmin).getRange 10).2 = (m, s') := ⟨_, _, rfl⟩
  rw [hm] at ev hv
  simp only [hm] at ev hv ⊢
  have ht' : (s'.getRange 10).1 = qhaTemperatures args tmin := (getRange_spec hv 10).1
  have harr : ∀ t ∈ qhaTemperatures args tmin, ∀ j, ∃ f, totalFrequencyArray tools (args.fit phonons tmin).data t (some (args.volumes j)) = some f := by
    intro t ht j
    have h1 := hdef t ht j 0 0
    rw [QhaFit.totalFrequency, ← totalShiftArray_entry hu] at h1
    unfold totalFrequencyArray
    cases hs : totalShiftArray tools (args.fit phonons tmin).data (some (args.volumes j)) t false false with
    | none => rw [hs] at h1; simp at h1
    | some w => exact ⟨_, rfl⟩
  have hth : ∀ j, ∃ r, thermalArrays tools (args.fit phonons tmin).data thermo (qhaTemperatures args tmin) (args.volumes j) = some r := by
    intro j
    unfold thermalArrays
    cases hmm : (qhaTemperatures args tmin).mapM (fun t => (totalFrequencyArray tools (args.fit phonons tmin).data t (some (args.volumes j))).map fun f => thermo f t) with
    | some l => exact ⟨_, rfl⟩
    | none =>
      exfalso
      have : ∃ r, (qhaTemperatures args tmin).mapM (fun t => (totalFrequencyArray tools (args.fit phonons tmin).data t (some (args.volumes j))).map fun f => thermo f t) = some r := by
        refine ⟨_, (mapM_eq_some_iff _ _ ((qhaTemperatures args tmin).map fun t => thermo ((totalFrequencyArray tools (args.fit phonons tmin).data t (some (args.volumes j))).getD 0) t)).2 ?_⟩
        rw [List.forall₂_map_right_iff, List.forall₂_same]
        intro t ht
        obtain ⟨f, hf⟩ := harr t ht j
        rw [hf]; rfl
      obtain ⟨r, hr⟩ := this
      rw [hmm] at hr; simp at hr
  have hall : ∃ l, ((List.ofFn args.volumes).zip (List.ofFn args.energies)).mapM (fun p => thermalArrays tools (args.fit phonons tmin).data thermo (qhaTemperatures args tmin) p.1) = some l := by
    refine ⟨_, (mapM_eq_some_iff _ _ (((List.ofFn args.volumes).zip (List.ofFn args.energies)).map fun p => (thermalArrays tools (args.fit phonons tmin).data thermo (qhaTemperatures args tmin) p.1).getD ([], [], []))).2 ?_⟩
    rw [List.forall₂_map_right_iff, List.forall₂_same]
    intro p hp
    obtain ⟨j, hj⟩ := (List.mem_ofFn' _ _).1 (List.of_mem_zip hp).1
    obtain ⟨r, hr⟩ := hth j
    rw [← hj, hr]; rfl
  obtain ⟨l, hl⟩ := hall
  have er' : arange (tmin.getD ((args.fit phonons tmin).data.temperatures 0)) ((none : Option ℝ).getD ((args.fit phonons tmin).data.temperatures (Fin.last nt))) 10 = qhaTemperatures args tmin := rfl
  rw [er', hl] at ev
  simp only [Option.map_some] at ev
  subst ev
  simp only [ht']
  rw [List.getLast?_eq_some_getLast hne]
  rfl

/-- **C119** (files): the files that the calculation leaves, loaded by a later run with the same options, whatever it would calculate itself, give `PhonopyQHA` the same input. -/
theorem C119_reload (tools tools' : QhaTools ℝ) (thermo thermo' : Thermo nq nb) (args : QhaArgs Q nt nv nq nb) (phonons phonons' : Q → Fin nb → ℝ) (tmin : Option ℝ) (disk : QhaDisk)
    (inp : QhaInput) (disk' : QhaDisk) (s : QhaObj Q nt nv nq nb) (h : qhaScript tools thermo args phonons tmin false disk = some (inp, disk', s)) :
    ∃ s', qhaScript tools' thermo' args phonons' tmin true disk' = some (inp, disk', s') := by
  have h0 : Consistent tools (args.fit phonons tmin).data tmin none (args.fit phonons tmin) := consistent_new
  have h0' : Consistent tools' (args.fit phonons' tmin).data tmin none (args.fit phonons' tmin) := consistent_new
  obtain ⟨er, hr⟩ := getRange_spec h0 10
  obtain ⟨er', -⟩ := getRange_spec h0' 10
  obtain ⟨ev, hv⟩ := qhaVolumeLoop_spec thermo ((List.ofFn args.volumes).zip (List.ofFn args.energies)) hr
  unfold qhaScript at h ⊢
  simp only [Bool.false_eq_true, if_false, if_true] at h ⊢
  obtain ⟨m, s', hm⟩ : ∃ m s', qhaVolumeLoop tools thermo ((List.ofFn args.volumes).zip (List.ofFn args.energies)) ((args.fit phonons tmin).getRange 10).2 = (m, s') := ⟨_, _, rfl⟩
  rw [hm] at ev hv
  simp only [hm] at h ev hv
  have ht : ((args.fit phonons tmin).getRange 10).1 = qhaTemperatures args tmin := er
  have ht2 : ((args.fit phonons' tmin).getRange 10).1 = qhaTemperatures args tmin := er'
  have ht' : (s'.getRange 10).1 = qhaTemperatures args tmin := (getRange_spec hv 10).1
  cases m with
  | none => simp at h
  | some m =>
    simp only [ht, ht'] at h
    cases hl : (qhaTemperatures args tmin).getLast? with
    | none => rw [hl] at h; simp at h
    | some tm =>
      rw [hl] at h
      simp only [Option.bind_eq_bind, Option.bind_some, pure, Option.some.injEq, Prod.mk.injEq] at h
      obtain ⟨rfl, rfl, rfl⟩ := h
      refine ⟨((args.fit phonons' tmin).getRange 10).2, ?_⟩
      rw [ht2, hl]
      rfl

/-- C119 is violated by the names of the options. Let `freq T V` be the frequencies at each temperature and volume, and let the user follow the help text: `-cv_data` are the files at constant volume `v0`, one per temperature, `-ct_data` the files at
constant temperature `t0`, one per volume. Then the shift called the one of temperature `i` is the one of volume `i` (and the other way round): the temperature dependence of the frequencies is taken from the volumes. -/
theorem C119_options_violated {n : ℕ} (args : QhaArgs Q n n nq nb) (phonons : Q → Fin nb → ℝ) (tmin : Option ℝ) (freq : ℝ → ℝ → Fin nq → Fin nb → ℝ) (t0 v0 : ℝ)
    (hcv : ∀ i q b, (args.cvData i q).2 b = freq (args.temperatures i) v0 q b) (hct : ∀ i q b, (args.ctData i q).2 b = freq t0 (args.volumes i) q b) (b : Fin nb) (q : Fin nq) (i : Fin (n + 1)) :
    (args.fit phonons tmin).data.shiftT b q i = freq t0 (args.volumes i) q b - (args.fit phonons tmin).data.harmonic q b ∧ ((args.fit phonons tmin).data.filesV i q).2 b = freq (args.temperatures i) v0 q b := by
  unfold QhaFit.shiftT
  exact ⟨by rw [← hct]; rfl, by rw [← hcv]; rfl⟩

/-! ## Constant pressure -/

theorem interp_first (x a fa : ℝ) (h : x ≤ a) : ∀ l : List (ℝ × ℝ), interp x ((a, fa) :: l) = fa
  | [] => by rw [interp]
  | (b, fb) :: t => by rw [interp, if_pos h]

theorem interp_last (x a fa : ℝ) : ∀ l : List (ℝ × ℝ), (l ++ [(a, fa)]).Pairwise (fun p q => p.1 < q.1) → a ≤ x → interp x (l ++ [(a, fa)]) = fa
  | [], _, _ => by rw [List.nil_append, interp]
  | [(c, fc)], h, hx => by
    simp only [List.cons_append, List.nil_append, List.pairwise_cons, List.mem_singleton, forall_eq] at h
    rw [List.cons_append, List.nil_append, interp, if_neg (by have := h.1; linarith), if_neg (by linarith), interp]
  | (c, fc) :: (e, fe) :: l, h, hx => by
    have h' : ((e, fe) :: l ++ [(a, fa)]).Pairwise (fun p q => p.1 < q.1) := (List.pairwise_cons.1 h).2
    have hc : c < e := (List.pairwise_cons.1 h).1 (e, fe) (by simp)
    have he : e < a := (List.pairwise_cons.1 h').1 (a, fa) (by simp)
    rw [List.cons_append, List.cons_append, interp, if_neg (by linarith), if_neg (by linarith)]
    exact interp_last x a fa ((e, fe) :: l) h' hx

theorem interp_linear (x a fa b fb : ℝ) (ha : a ≤ x) (hb : x ≤ b) (r : List (ℝ × ℝ)) : ∀ l : List (ℝ × ℝ), (l ++ (a, fa) :: (b, fb) :: r).Pairwise (fun p q => p.1 < q.1) →
    interp x (l ++ (a, fa) :: (b, fb) :: r) = fa + (fb - fa) * ((x - a) / (b - a))
  | [], h => by
    have hab : a < b := (List.pairwise_cons.1 h).1 (b, fb) (by simp)
    rw [List.nil_append] at h ⊢
    rcases eq_or_lt_of_le ha with rfl | ha
    · rw [interp_first _ _ _ le_rfl]; simp
    rcases eq_or_lt_of_le hb with rfl | hb
    · rw [interp_grid x fb _ h (by simp)]
      have : x - a ≠ 0 := by linarith
      field_simp; ring
    · rw [interp, if_neg (by linarith), if_pos hb]
      have : b - a ≠ 0 := by linarith
      field_simp; ring
  | (c, fc) :: l, h => by
    have h' := (List.pairwise_cons.1 h).2
    have ih := interp_linear x a fa b fb ha hb r l h'
    cases l with
    | nil =>
      have hc : c < a := (List.pairwise_cons.1 h).1 (a, fa) (by simp)
      rw [List.cons_append, List.nil_append, interp, if_neg (by linarith), if_neg (by linarith)]
      exact ih
    | cons p l =>
      obtain ⟨e, fe⟩ := p
      have hc : c < e := (List.pairwise_cons.1 h).1 (e, fe) (by simp)
      have he : e < a := (List.pairwise_cons.1 h').1 (a, fa) (by simp)
      rw [List.cons_append, List.cons_append, interp, if_neg (by linarith), if_neg (by linarith)]
      exact ih

theorem zip_split {α β : Type} {l : List α} {m : List β} {i : ℕ} {a a' : α} {b b' : β} (h1 : l[i]? = some a) (h2 : l[i + 1]? = some a') (h3 : m[i]? = some b) (h4 : m[i + 1]? = some b') :
    ∃ p r, l.zip m = p ++ (a, b) :: (a', b') :: r := by
  have e1 : (l.zip m)[i]? = some (a, b) := List.getElem?_zip_eq_some.2 ⟨h1, h3⟩
  have e2 : (l.zip m)[i + 1]? = some (a', b') := List.getElem?_zip_eq_some.2 ⟨h2, h4⟩
  obtain ⟨n1, g1⟩ := List.getElem?_eq_some_iff.1 e1
  obtain ⟨n2, g2⟩ := List.getElem?_eq_some_iff.1 e2
  refine ⟨(l.zip m).take i, (l.zip m).drop (i + 2), ?_⟩
  rw [← g1, ← g2, List.cons_getElem_drop_succ, List.cons_getElem_drop_succ, List.take_append_drop]

/-- **C119** (volume): for increasing temperatures the volume at a temperature of the list is the one of the list, between two neighbours it is on the straight line, and outside it is silently the first or the last one. -/
theorem C119_volume (temperatures volumes : List ℝ) (hlen : temperatures.length = volumes.length) (hs : temperatures.Pairwise (· < ·)) :
    (∀ (i : ℕ) (t v : ℝ), temperatures[i]? = some t → volumes[i]? = some v → qhaVolumeAt temperatures volumes t = v) ∧
    (∀ (i : ℕ) (t t' v v' x : ℝ), temperatures[i]? = some t → temperatures[i + 1]? = some t' → volumes[i]? = some v → volumes[i + 1]? = some v' → t ≤ x → x ≤ t' →
      qhaVolumeAt temperatures volumes x = v + (v' - v) * ((x - t) / (t' - t))) ∧
    (∀ t v x, temperatures.head? = some t → volumes.head? = some v → x ≤ t → qhaVolumeAt temperatures volumes x = v) ∧
    ∀ t v x, temperatures.getLast? = some t → volumes.getLast? = some v → t ≤ x → qhaVolumeAt temperatures volumes x = v := by
  have hz : (temperatures.zip volumes).Pairwise (fun p q => p.1 < q.1) := by
    have := hs
    rw [← List.map_fst_zip (l₁ := temperatures) (l₂ := volumes) (by omega), List.pairwise_map] at this
    exact this
  unfold qhaVolumeAt
  refine ⟨fun i t v ht hv => interp_grid t v _ hz ?_, ?_, ?_, ?_⟩
  · exact List.mem_of_getElem? (List.getElem?_zip_eq_some.2 ⟨ht, hv⟩)
  · intro i t t' v v' x h1 h2 h3 h4 hx hx'
    obtain ⟨p, r, e⟩ := zip_split h1 h2 h3 h4
    rw [e] at hz ⊢
    exact interp_linear x t v t' v' hx hx' r p hz
  · intro t v x ht hv hx
    cases temperatures with
    | nil => simp at ht
    | cons t0 ts =>
      cases volumes with
      | nil => simp at hv
      | cons v0 vs =>
        simp only [List.head?_cons, Option.some.injEq] at ht hv
        subst ht; subst hv
        exact interp_first x t0 v0 hx _
  · intro t v x ht hv hx
    obtain ⟨ts, rfl⟩ := List.getLast?_eq_some_iff.1 ht
    obtain ⟨vs, rfl⟩ := List.getLast?_eq_some_iff.1 hv
    have hl : ts.length = vs.length := by simpa using hlen
    rw [List.zip_append hl] at hz ⊢
    exact interp_last x t v _ hz hx

theorem qhaShiftLoop_spec {d : QhaFit ℝ Q nt nv nq nb} {tmin tmax : Option ℝ} (l : List (ℝ × ℝ)) {s : QhaObj Q nt nv nq nb} (hs : Consistent tools d tmin tmax s) :
    (qhaShiftLoop tools l s).1 = l.mapM (fun p => totalShiftArray tools d (some p.1) p.2 false false) ∧ Consistent tools d tmin tmax (qhaShiftLoop tools l s).2 := by
  induction l generalizing s with
  | nil => exact ⟨rfl, hs⟩
  | cons p l ih =>
    obtain ⟨v, t⟩ := p
    obtain ⟨e, hc⟩ := getTotalShifts_spec hs (some v) t false false
    rw [qhaShiftLoop, List.mapM_cons]
    obtain ⟨m, s', hm⟩ : ∃ m s', s.getTotalShifts tools (some v) t false false = (m, s') := ⟨_, _, rfl⟩
    rw [hm] at e hc ⊢
    simp only at e hc ⊢
    rw [← e]
    cases m with
    | none => exact ⟨rfl, hc⟩
    | some f =>
      obtain ⟨e2, hc2⟩ := ih hc
      obtain ⟨l', s'', hl⟩ : ∃ l' s'', qhaShiftLoop tools l s' = (l', s'') := ⟨_, _, rfl⟩
      rw [hl] at e2 hc2
      simp only at e2 hc2
      simp only [hl, ← e2]
      cases l' with
      | none => exact ⟨rfl, hc2⟩
      | some l' => exact ⟨rfl, hc2⟩

/-- **C119** (shifts at constant pressure): after any calls, the shifts returned for a wave vector are those of the first wave vector of the first file that is close to it, one list per branch, whose entry `i` is the total shift (C96) at the temperature
number `i` and the equilibrium volume of that temperature. -/
theorem C119_pressure (tools : QhaTools ℝ) (hu : UniformErrors tools.interp) (thermo : Thermo nq nb) (d : QhaFit ℝ Q nt nv nq nb) (tmin tmax : Option ℝ) (calls : List Call) (close : Q → Q → Bool) (temperatures volumes : List ℝ) (q : Q)
    (r : Fin nb → List ℝ) (h : (qhaShiftConstantPressure tools close temperatures volumes q (after tools thermo calls (new d tmin tmax))).1 = some r) :
    ∃ k : Fin nq, close (d.filesT 0 k).1 q = true ∧ (∀ k' < k, close (d.filesT 0 k').1 q = false) ∧
      ∀ b, (r b).length = min volumes.length temperatures.length ∧ ∀ (i : ℕ) (t v : ℝ), temperatures[i]? = some t → volumes[i]? = some v → ∃ w, (r b)[i]? = some w ∧ d.totalShift tools (some v) t false false k b = some w := by
  have hc : Consistent tools d tmin tmax (after tools thermo calls (new d tmin tmax)) := consistent_after thermo calls consistent_new
  unfold qhaShiftConstantPressure at h
  rw [hc.data] at h
  cases hq : qpointToIndex close (List.ofFn fun i => (d.filesT 0 i).1) q with
  | none => rw [hq] at h; simp at h
  | some k =>
    rw [hq] at h
    unfold qpointToIndex at hq
    rw [List.findIdx?_eq_some_iff_getElem] at hq
    obtain ⟨hk, h1, h2⟩ := hq
    have hk' : k < nq := by simpa using hk
    obtain ⟨-, hh⟩ := getHarmonic_spec hc
    obtain ⟨e, -⟩ := qhaShiftLoop_spec (volumes.zip temperatures) hh
    obtain ⟨l, s', hl⟩ : ∃ l s', qhaShiftLoop tools (volumes.zip temperatures) (after tools thermo calls (new d tmin tmax)).getHarmonic.2 = (l, s') := ⟨_, _, rfl⟩
    rw [hl] at e
    simp only at e
    simp only [hl, dif_pos hk'] at h
    cases l with
    | none => simp at h
    | some l =>
      simp only [Option.some.injEq] at h
      subst h
      obtain ⟨hlen, hget⟩ := mapM_lookup e.symm
      refine ⟨⟨k, hk'⟩, by simpa using h1, fun k' hlt => by simpa using h2 k' hlt, fun b => ⟨by simp [hlen], fun i t v ht hv => ?_⟩⟩
      obtain ⟨w, hw, hf⟩ := hget i (v, t) (List.getElem?_zip_eq_some.2 ⟨hv, ht⟩)
      refine ⟨w ⟨k, hk'⟩ b, by simp [List.getElem?_map, hw], ?_⟩
      rw [← totalShiftArray_entry hu, hf]; rfl

/-- Tools for the example: the interpolation gives the first value, the fit is zero. -/
noncomputable def firstTools : QhaTools ℝ where
  polyfit _ _ := 0
  interp pts _ := pts.head?.map (·.2)

theorem firstTools_uniform : UniformErrors firstTools.interp := by
  intro p p' h x
  have h1 : p.length = p'.length := by simpa using congrArg List.length h
  cases p <;> cases p' <;> simp_all [firstTools]

/-- Data for the example: two temperatures, three volumes, one wave vector, one branch. -/
noncomputable def exampleArgs : QhaArgs Unit 1 2 1 1 := ⟨fun i _ => ((), fun _ => 3 - i.val), fun i _ => ((), fun _ => 4 - i.val), fun i => 20 * i.val, some 0, 1, fun i => 10 + i.val, fun i => i.val⟩

/-- The hypotheses of C119_script, C119_runs, C119_reload are met. -/
example (thermo : Thermo 1 1) (disk : QhaDisk) : (qhaScript firstTools thermo exampleArgs (fun _ _ => 5) none false disk).isSome := by
  refine C119_runs (nq := 0) (nb := 0) firstTools firstTools_uniform thermo exampleArgs _ none disk ?_ ?_
  · intro h
    have : (qhaTemperatures exampleArgs none).length = 0 := by rw [h]; rfl
    unfold qhaTemperatures arange exampleArgs at this
    norm_num at this
  · intro t _ j q b
    simp [QhaFit.totalFrequency, QhaFit.totalShift, QhaFit.interpolatedV, QhaFit.shiftV, QhaArgs.fit, new, exampleArgs, firstTools]

/-- C119_volume on numbers. -/
example : qhaVolumeAt [0, 10, 20] [100, 102, 103] 15 = 205 / 2 := by
  rw [(C119_volume [0, 10, 20] [100, 102, 103] rfl (by norm_num)).2.1 1 10 20 102 103 15 rfl rfl rfl rfl (by norm_num) (by norm_num)]
  norm_num

end script
end Verif
