import Verif.Model.Qha
import Verif.Props.Inputs
import Verif.Props.Arrangement
import Mathlib.Algebra.Polynomial.Roots
import Mathlib.Tactic.LinearCombination
import Mathlib.Tactic.Linarith
import Mathlib.Tactic.NormNum

/-! # C96, C97: quasi-harmonic scripts -/

set_option autoImplicit false
set_option linter.unusedSectionVars false

namespace Verif

section fitting
variable {K : Type*} [Field K] [LinearOrder K] [IsStrictOrderedRing K]

/-- The sum of the squares of the residuals of a polynomial at points `(x, y)`. -/
noncomputable def residual (pts : List (K × K)) (P : Polynomial K) : K := (pts.map fun p => (p.2 - P.eval p.1) ^ 2).sum

/-- Specification of `np.polyfit`: a polynomial of degree at most `n` with the least sum of squares. -/
def IsLeastSquares (pts : List (K × K)) (n : ℕ) (P : Polynomial K) : Prop := P.natDegree ≤ n ∧ ∀ R : Polynomial K, R.natDegree ≤ n → residual pts P ≤ residual pts R

/-- Specification of `interp1d(kind='quadratic')` at its nodes: with at least three points with distinct abscissae it passes through them. -/
def InterpolatesNodes (interp : List (K × K) → K → Option K) : Prop :=
  ∀ pts : List (K × K), 3 ≤ pts.length → (pts.map (·.1)).Nodup → ∀ p ∈ pts, interp pts p.1 = some p.2

theorem residual_nonneg (pts : List (K × K)) (P : Polynomial K) : 0 ≤ residual pts P := by
  unfold residual
  apply List.sum_nonneg
  intro x hx
  obtain ⟨p, -, rfl⟩ := List.mem_map.1 hx
  positivity

theorem residual_eq_zero (pts : List (K × K)) (P : Polynomial K) : residual pts P = 0 ↔ ∀ p ∈ pts, p.2 = P.eval p.1 := by
  induction pts with
  | nil => simp [residual]
  | cons p pts ih =>
    have h1 : residual (p :: pts) P = (p.2 - P.eval p.1) ^ 2 + residual pts P := by simp [residual]
    have h2 := residual_nonneg pts P
    rw [h1, List.forall_mem_cons, ← ih]
    constructor
    · intro h
      have h3 : (p.2 - P.eval p.1) ^ 2 = 0 := le_antisymm (by linarith) (by positivity)
      exact ⟨sub_eq_zero.1 (pow_eq_zero_iff (two_ne_zero) |>.1 h3), by linarith⟩
    · rintro ⟨h3, h4⟩
      rw [h3, h4]; simp

/-- A least squares polynomial through data of a polynomial of the same degree, at more distinct points than the degree, is that polynomial. -/
theorem leastSquares_eq {n m : ℕ} (x : Fin m → K) (y : Fin m → K) (hx : Function.Injective x) (hm : n < m) (P R : Polynomial K) (hP : IsLeastSquares (List.ofFn fun i => (x i, y i)) n P)
    (hR : R.natDegree ≤ n) (hy : ∀ i, y i = R.eval (x i)) : P = R := by
  have h0 : residual (List.ofFn fun i => (x i, y i)) R = 0 := (residual_eq_zero _ _).2 fun p hp => by
    obtain ⟨i, rfl⟩ := (List.mem_ofFn' _ _).1 hp; exact hy i
  have h1 : residual (List.ofFn fun i => (x i, y i)) P = 0 := le_antisymm (h0 ▸ hP.2 R hR) (residual_nonneg _ _)
  have h2 : ∀ i, y i = P.eval (x i) := fun i => (residual_eq_zero _ _).1 h1 _ ((List.mem_ofFn' _ _).2 ⟨i, rfl⟩)
  refine Polynomial.eq_of_natDegree_lt_card_of_eval_eq P R hx (fun i => by rw [← h2, hy]) ?_
  rw [Fintype.card_fin]
  exact lt_of_le_of_lt (max_le hP.1 hR) hm

variable {Q : Type*} {nt nv nq nb : ℕ}

theorem interpolatedV_node (tools : QhaTools K) (hi : InterpolatesNodes tools.interp) (d : QhaFit K Q nt nv nq nb) (r : K) (hr : d.refTemperature = some r) (hv : Function.Injective d.volumes) (hn : 2 ≤ nv)
    (i : Fin (nv + 1)) (q : Fin nq) (b : Fin nb) :
    d.interpolatedV tools (d.volumes i) q b = some ((d.filesV i q).2 b - (d.fittedT tools r q b + d.harmonic q b)) := by
  unfold QhaFit.interpolatedV QhaFit.shiftV
  rw [hr]
  simp only [Option.map_some, Option.bind_some]
  refine hi _ (by rw [List.length_ofFn]; omega) ?_ (d.volumes i, _) ((List.mem_ofFn' _ _).2 ⟨i, rfl⟩)
  rw [List.map_ofFn, List.nodup_ofFn]
  exact hv

/-- **C96**, reference temperature: for every data set (at least three distinct volumes), whatever the fitted order and whatever the quality of the fit in the temperature, the total frequencies at the reference temperature and at a
volume of the list are exactly those of the file of that volume. -/
theorem C96_reference (tools : QhaTools K) (hi : InterpolatesNodes tools.interp) (d : QhaFit K Q nt nv nq nb) (r : K) (hr : d.refTemperature = some r) (hv : Function.Injective d.volumes) (hn : 2 ≤ nv)
    (i : Fin (nv + 1)) (q : Fin nq) (b : Fin nb) :
    d.totalFrequency tools r (some (d.volumes i)) q b = some ((d.filesV i q).2 b) := by
  unfold QhaFit.totalFrequency QhaFit.totalShift
  simp only [Option.getD_some, Bool.false_eq_true, if_false, Option.bind_some, interpolatedV_node tools hi d r hr hv hn]
  simp only [Option.map_some]
  congr 1
  ring

/-- **C96**, temperature dependence: if the shifts at the volume of the structure are polynomials `p q b` of the temperature of at most the fitted order (more distinct temperatures than the order), the total frequencies at a volume of
the list are those of its file plus the change `p(T) - p(T_ref)` of the shift. `np.polyfit` only has to give a least squares polynomial for these data. -/
theorem C96_polynomial (tools : QhaTools K) (hi : InterpolatesNodes tools.interp) (d : QhaFit K Q nt nv nq nb) (r : K) (hr : d.refTemperature = some r) (hv : Function.Injective d.volumes) (hn : 2 ≤ nv)
    (hT : Function.Injective d.temperatures) (ho : d.order < nt + 1)
    (hfit : ∀ q b, IsLeastSquares (List.ofFn fun i => (d.temperatures i, (d.filesT i q).2 b - d.phonons (d.filesT 0 q).1 b)) d.order
      (tools.polyfit (List.ofFn fun i => (d.temperatures i, (d.filesT i q).2 b - d.phonons (d.filesT 0 q).1 b)) d.order))
    (p : Fin nq → Fin nb → Polynomial K) (hp : ∀ q b, (p q b).natDegree ≤ d.order)
    (hdata : ∀ i q b, (d.filesT i q).2 b = d.phonons (d.filesT 0 q).1 b + (p q b).eval (d.temperatures i)) (t : K) (i : Fin (nv + 1)) (q : Fin nq) (b : Fin nb) :
    d.totalFrequency tools t (some (d.volumes i)) q b = some ((d.filesV i q).2 b + ((p q b).eval t - (p q b).eval r)) := by
  have hf : ∀ t, d.fittedT tools t q b = (p q b).eval t := by
    intro t
    unfold QhaFit.fittedT QhaFit.shiftT QhaFit.harmonic
    rw [leastSquares_eq d.temperatures _ hT ho _ (p q b) (hfit q b) (hp q b) fun i => by rw [hdata]; ring]
  unfold QhaFit.totalFrequency QhaFit.totalShift
  simp only [Option.getD_some, Bool.false_eq_true, if_false, Option.bind_some, interpolatedV_node tools hi d r hr hv hn, hf]
  simp only [Option.map_some]
  congr 1
  ring

/-- **C96**: without a volume the first one of the list is used, whatever the data. -/
theorem C96_default_volume (tools : QhaTools K) (d : QhaFit K Q nt nv nq nb) (t : K) (q : Fin nq) (b : Fin nb) :
    d.totalFrequency tools t none q b = d.totalFrequency tools t (some (d.volumes 0)) q b := rfl

/-- C96 is violated (options): `interpolate_volume` is inverted. If for some wave vector and branch the frequencies of the volume files are not on a polynomial of the fitted order, the shifts obtained with `interpolate_volume=True` miss the
data at a volume of the list (at the reference temperature), whatever the fit, while the default reproduces all the data. -/
theorem C96_interpolate_violated (tools : QhaTools K) (hi : InterpolatesNodes tools.interp) (d : QhaFit K Q nt nv nq nb) (r : K) (hr : d.refTemperature = some r) (hv : Function.Injective d.volumes) (hn : 2 ≤ nv)
    (q : Fin nq) (b : Fin nb) (hdeg : ∀ pts, (tools.polyfit pts d.order).natDegree ≤ d.order)
    (hdata : ∀ P : Polynomial K, P.natDegree ≤ d.order → ∃ i, (d.filesV i q).2 b ≠ P.eval (d.volumes i)) :
    (∃ i, d.totalShift tools (some (d.volumes i)) r false true q b ≠ some ((d.filesV i q).2 b - d.phonons (d.filesT 0 q).1 b)) ∧
    ∀ i, d.totalShift tools (some (d.volumes i)) r false false q b = some ((d.filesV i q).2 b - d.phonons (d.filesT 0 q).1 b) := by
  constructor
  · set s : Fin (nv + 1) → K := fun i => (d.filesV i q).2 b - (d.fittedT tools r q b + d.harmonic q b) with hs
    set P := tools.polyfit (List.ofFn fun i => (d.volumes i, s i)) d.order with hP
    obtain ⟨i, hne⟩ := hdata (P + Polynomial.C (d.fittedT tools r q b + d.harmonic q b))
      ((Polynomial.natDegree_add_le _ _).trans (max_le (hdeg _) (by rw [Polynomial.natDegree_C]; exact Nat.zero_le _)))
    refine ⟨i, fun h => hne ?_⟩
    unfold QhaFit.totalShift QhaFit.fittedV QhaFit.shiftV at h
    rw [hr] at h
    simp only [Option.getD_some, Bool.false_eq_true, if_false, if_true, Option.bind_some, Option.map_some, Option.some.injEq] at h
    change _ + P.eval (d.volumes i) = _ at h
    rw [Polynomial.eval_add, Polynomial.eval_C]
    unfold QhaFit.harmonic
    linear_combination -h
  · intro i
    unfold QhaFit.totalShift
    simp only [Option.getD_some, Bool.false_eq_true, if_false, Option.bind_some, interpolatedV_node tools hi d r hr hv hn]
    simp only [Option.map_some]
    congr 1
    unfold QhaFit.harmonic
    ring

/-- C96 is violated (reference temperature): `--ref_temperature` is optional, but without it no total shift can be calculated, whatever the data, the volume, the temperature and the options. -/
theorem C96_no_reference_violated (tools : QhaTools K) (d : QhaFit K Q nt nv nq nb) (hr : d.refTemperature = none) (v : Option K) (t : K) (i j : Bool) (q : Fin nq) (b : Fin nb) :
    d.totalShift tools v t i j q b = none := by
  unfold QhaFit.totalShift QhaFit.fittedV QhaFit.interpolatedV QhaFit.shiftV
  rw [hr]
  simp

/-- C96 is violated (wave vectors): only the wave vectors of the first temperature file are used; those of the other files can be in another order or be other ones, and the shifts are calculated all the same. -/
theorem C96_wave_vectors_violated (tools : QhaTools K) (d : QhaFit K Q nt nv nq nb) (wT : Fin (nt + 1) → Fin nq → Q) (wV : Fin (nv + 1) → Fin nq → Q) (h0 : ∀ q, wT 0 q = (d.filesT 0 q).1)
    (t : K) (v : Option K) (q : Fin nq) (b : Fin nb) :
    QhaFit.totalFrequency tools { d with filesT := fun i q => (wT i q, (d.filesT i q).2), filesV := fun i q => (wV i q, (d.filesV i q).2) } t v q b = d.totalFrequency tools t v q b := by
  simp only [QhaFit.totalFrequency, QhaFit.totalShift, QhaFit.interpolatedV, QhaFit.fittedV, QhaFit.shiftV, QhaFit.fittedT, QhaFit.interpolatedT, QhaFit.shiftT, QhaFit.harmonic, h0]

/-- Tools for the examples: the interpolation is a look-up, the fit is the polynomial `X` for every data set. -/
noncomputable def exampleTools : QhaTools ℚ where
  polyfit _ _ := Polynomial.X
  interp pts x := (pts.find? fun p => p.1 = x).map (·.2)

theorem lookup_interpolates : InterpolatesNodes (K := ℚ) exampleTools.interp := by
  intro pts _ hnd p hp
  have key : ∀ pts : List (ℚ × ℚ), (pts.map (·.1)).Nodup → p ∈ pts → (pts.find? fun p' => p'.1 = p.1).map (·.2) = some p.2 := by
    intro pts
    induction pts with
    | nil => intro _ h; cases h
    | cons a pts ih =>
      intro hnd hp
      by_cases ha : a.1 = p.1
      · rw [List.find?_cons_of_pos (by simpa using ha)]
        rw [List.mem_cons] at hp
        rcases hp with rfl | hp
        · rfl
        · rw [List.map_cons, List.nodup_cons] at hnd
          exact absurd (ha ▸ List.mem_map_of_mem hp) hnd.1
      · rw [List.find?_cons_of_neg (by simpa using ha)]
        rw [List.mem_cons] at hp
        rcases hp with rfl | hp
        · exact absurd rfl ha
        · rw [List.map_cons, List.nodup_cons] at hnd
          exact ih hnd.2 hp
  exact key pts hnd hp

/-- Data for the examples: one wave vector, one branch of harmonic frequency 5, shift `T` at the temperatures 0, 1, 2, volumes 10, 11, 12 with frequencies 6, 8, 7. -/
def exampleQha : QhaFit ℚ Unit 2 2 1 1 where
  temperatures i := i.val
  volumes i := 10 + i.val
  filesT i _ := ((), fun _ => 5 + i.val)
  filesV i _ := ((), fun _ => ![6, 8, 7] i)
  phonons _ _ := 5
  refTemperature := some 1
  order := 1

example : Function.Injective exampleQha.temperatures ∧ Function.Injective exampleQha.volumes ∧ exampleQha.order < 2 + 1 ∧
    (∀ i q b, (exampleQha.filesT i q).2 b = exampleQha.phonons (exampleQha.filesT 0 q).1 b + (Polynomial.X : Polynomial ℚ).eval (exampleQha.temperatures i)) ∧
    IsLeastSquares (List.ofFn fun i => (exampleQha.temperatures i, (exampleQha.filesT i 0).2 0 - exampleQha.phonons (exampleQha.filesT 0 0).1 0)) 1
      (exampleTools.polyfit (List.ofFn fun i => (exampleQha.temperatures i, (exampleQha.filesT i 0).2 0 - exampleQha.phonons (exampleQha.filesT 0 0).1 0)) 1) := by
  refine ⟨fun i j h => ?_, fun i j h => ?_, by decide, fun i q b => ?_, Polynomial.natDegree_X_le, fun R _ => ?_⟩
  · simpa [exampleQha, Fin.val_inj] using h
  · simpa [exampleQha, Fin.val_inj] using h
  · simp [exampleQha]
  · have : residual (List.ofFn fun i => (exampleQha.temperatures i, (exampleQha.filesT i 0).2 0 - exampleQha.phonons (exampleQha.filesT 0 0).1 0)) Polynomial.X = 0 :=
      (residual_eq_zero _ _).2 fun p hp => by
        obtain ⟨i, rfl⟩ := (List.mem_ofFn' _ _).1 hp
        simp [exampleQha]
    exact (show residual _ Polynomial.X ≤ _ by rw [this]; exact residual_nonneg _ _)

/-- The frequencies 6, 8, 7 are not on a line: the hypothesis of `C96_interpolate_violated`. -/
example : ∀ P : Polynomial ℚ, P.natDegree ≤ exampleQha.order → ∃ i, (exampleQha.filesV i 0).2 0 ≠ P.eval (exampleQha.volumes i) := by
  intro P hP
  by_contra hcon
  have h : ∀ i, (exampleQha.filesV i 0).2 0 = P.eval (exampleQha.volumes i) := fun i => by
    by_contra hne; exact hcon ⟨i, hne⟩
  have e := Polynomial.eq_X_add_C_of_natDegree_le_one (p := P) hP
  have h0 := h 0
  have h1 := h 1
  have h2 := h 2
  rw [e] at h0 h1 h2
  simp [exampleQha] at h0 h1 h2
  linarith

/-! ### Temperatures, bands and pairs of temperature and volume -/

/-- **C96**, temperature range: the thermal properties are calculated at temperatures from `tmin` (the first one) with the given step, all of them below the last temperature `tmax`: the last temperature itself is never included. -/
theorem C96_range [FloorRing K] (tmin tmax : Option K) (temps : List K) (step : K) (hs : 0 < step) (a b : K) (ha : tmin.or temps[0]? = some a) (hb : tmax.or temps.getLast? = some b) (l : List K)
    (h : qhaTemperatureRange tmin tmax temps step = some l) :
    (∀ t ∈ l, a ≤ t ∧ t < b) ∧ (∀ n : ℕ, a + n * step < b → l[n]? = some (a + n * step)) ∧ b ∉ l := by
  unfold qhaTemperatureRange at h
  rw [ha, hb] at h
  simp only [Option.bind_some, Option.map_some, Option.some.injEq] at h
  subst h
  have key : ∀ n : ℕ, n < ⌈(b - a) / step⌉.toNat ↔ a + n * step < b := by
    intro n
    rw [Int.lt_toNat, Int.lt_ceil, lt_div_iff₀ hs]
    push_cast
    constructor <;> intro h <;> linarith
  have h1 : ∀ t ∈ arange a b step, a ≤ t ∧ t < b := by
    intro t ht
    obtain ⟨n, hn, rfl⟩ := List.mem_map.1 ht
    rw [List.mem_range] at hn
    refine ⟨?_, (key n).1 hn⟩
    have : (0 : K) ≤ n * step := by positivity
    linarith
  refine ⟨h1, fun n hn => ?_, fun hm => lt_irrefl _ (h1 b hm).2⟩
  unfold arange
  rw [List.getElem?_map, List.getElem?_range ((key n).2 hn)]
  rfl

example : qhaTemperatureRange (K := ℚ) none none [300, 310, 325] 10 = some [300, 310, 320] := by decide +kernel

/-- C96 is violated (bands): the automatic band path is never used: for every input file that is read and has no `BANDS` section the script stops (KeyError). -/
theorem C96_bands_violated {R : Type*} (c : InputCodec R) (file : List Line) (s : InputParameters R) (h : readParameters c file = some s) (hno : ∀ i, ¬ IsSection "BANDS" file i) (key : Bool) (seek : List (List R)) :
    qhaBands key seek s.ranges = none := by
  have : s.ranges = none := congrArg Prod.fst ((bands_section c file s h).2 hno)
  rw [this]
  cases key <;> rfl

/-- **C96**, bands: with a `BANDS` section, its path is used. -/
theorem C96_bands {β : Type*} (key : Bool) (seek bands : β) : qhaBands key seek (some bands) = some bands := by cases key <;> rfl

theorem filterMap_range_getElem? {α : Type*} (f : ℕ → Option α) : ∀ m : ℕ, (∀ i < m, (f i).isSome) → ((List.range m).filterMap f).length = m ∧ ∀ i < m, ((List.range m).filterMap f)[i]? = f i
  | 0, _ => ⟨rfl, fun i hi => absurd hi (Nat.not_lt_zero _)⟩
  | m + 1, h => by
    obtain ⟨ih1, ih2⟩ := filterMap_range_getElem? f m fun i hi => h i (by omega)
    obtain ⟨x, hx⟩ := Option.isSome_iff_exists.1 (h m (by omega))
    have e : (List.range (m + 1)).filterMap f = (List.range m).filterMap f ++ [x] := by
      rw [List.range_succ, List.filterMap_append]; simp [hx]
    rw [e]
    refine ⟨by simp [ih1], fun i hi => ?_⟩
    rcases Nat.lt_succ_iff_lt_or_eq.1 hi with hlt | rfl
    · rw [List.getElem?_append_left (by omega), ih2 i hlt]
    · rw [List.getElem?_append_right (by omega), ih1, Nat.sub_self, hx]; rfl

theorem pyStride_getElem? {α : Type*} (k : ℕ) (hk : 0 < k) (l : List α) (i : ℕ) : (pyStride k l)[i]? = l[i * k]? := by
  unfold pyStride
  have hiff : ∀ i, i < (l.length + k - 1) / k ↔ i * k < l.length := by
    intro i
    rw [Nat.lt_div_iff_mul_lt hk]
    omega
  obtain ⟨h1, h2⟩ := filterMap_range_getElem? (fun i => l[i * k]?) ((l.length + k - 1) / k) fun i hi => by
    rw [List.getElem?_eq_getElem ((hiff i).1 hi)]; rfl
  by_cases hi : i < (l.length + k - 1) / k
  · exact h2 i hi
  · rw [List.getElem?_eq_none (by omega), List.getElem?_eq_none]
    by_contra hcon
    exact hi ((hiff i).2 (by omega))

/-- **C96**, constant pressure: every file `FC_T` is written for a temperature of the list and the equilibrium volume of the same temperature. -/
theorem C96_pressure_pairs {α β : Type*} (temps : List α) (vols : List β) (i : ℕ) (t : α) (v : β) (h : (qhaFcPairs temps vols)[i]? = some (t, v)) : temps[20 * i]? = some t ∧ vols[20 * i]? = some v := by
  unfold qhaFcPairs at h
  rw [List.getElem?_zip_eq_some, pyStride_getElem? 20 (by norm_num), pyStride_getElem? 20 (by norm_num)] at h
  simpa [mul_comm] using h

/-- C96 is violated (gradient of the density of states): each curve but the first is drawn for a temperature with the equilibrium volume of another (lower) temperature, whatever the temperatures: if the equilibrium volumes are different at
different temperatures, the volume of the curve is not the one of its temperature. -/
theorem C96_gradient_violated {α β : Type*} (temps : List α) (vols : List β) (hnd : vols.Nodup) (i : ℕ) (hi : 0 < i) (t : α) (v : β) (h : (qhaDosPairs temps vols)[i]? = some (t, v)) :
    temps[40 * i]? = some t ∧ vols[20 * i]? = some v ∧ vols[40 * i]? ≠ some v := by
  unfold qhaDosPairs at h
  rw [List.getElem?_zip_eq_some, pyStride_getElem? 40 (by norm_num), pyStride_getElem? 20 (by norm_num)] at h
  rw [mul_comm 40, mul_comm 20]
  refine ⟨h.1, h.2, fun hcon => ?_⟩
  have h1 : i * 40 < vols.length := (List.getElem?_eq_some_iff.1 hcon).1
  have := (List.getElem?_inj h1 hnd).1 (hcon.trans h.2.symm)
  omega

example : (qhaDosPairs (List.range 100) (List.range 100))[1]? = some (40, 20) := by decide +kernel

/-- **C96**, wave vectors: the index found for a wave vector is that of the first entry of the first temperature file that is close to it; if there is none, none is found. -/
theorem C96_index {Q : Type*} (close : Q → Q → Bool) (data : List Q) (q : Q) :
    (∀ i, qpointToIndex close data q = some i ↔ ∃ p, data[i]? = some p ∧ close p q = true ∧ ∀ j < i, ∀ p', data[j]? = some p' → close p' q = false) ∧
    (qpointToIndex close data q = none ↔ ∀ p ∈ data, close p q = false) := by
  constructor
  · intro i
    unfold qpointToIndex
    rw [List.findIdx?_eq_some_iff_getElem]
    constructor
    · rintro ⟨h, h1, h2⟩
      refine ⟨data[i], List.getElem?_eq_getElem h, h1, fun j hj p' hp' => ?_⟩
      obtain ⟨hj', rfl⟩ := List.getElem?_eq_some_iff.1 hp'
      simpa using h2 j hj
    · rintro ⟨p, hp, h1, h2⟩
      obtain ⟨h, rfl⟩ := List.getElem?_eq_some_iff.1 hp
      refine ⟨h, h1, fun j hj => ?_⟩
      have := h2 j hj data[j] (List.getElem?_eq_getElem (by omega))
      simpa using this
  · unfold qpointToIndex
    rw [List.findIdx?_eq_none_iff]

end fitting

/-! ## C97 -/

section extract
variable {K : Type*} [Field K] [LinearOrder K] [IsStrictOrderedRing K]

theorem takeAt_map {α β : Type*} (f : α → β) (l : List α) (idx : List ℕ) : takeAt (l.map f) idx = (takeAt l idx).map f := by
  unfold takeAt
  rw [List.map_filterMap]
  simp

theorem takeAt_range {α : Type*} (l : List α) : takeAt l (List.range l.length) = l := by
  unfold takeAt
  obtain ⟨h1, h2⟩ := filterMap_range_getElem? (fun i => l[i]?) l.length fun i hi => by rw [List.getElem?_eq_getElem hi]; rfl
  apply List.ext_getElem? fun i => ?_
  by_cases hi : i < l.length
  · exact h2 i hi
  · rw [List.getElem?_eq_none (by omega), List.getElem?_eq_none (by omega)]

theorem takeAt_perm {α : Type*} (l : List α) (idx : List ℕ) (h : idx.Perm (List.range l.length)) : (takeAt l idx).Perm l := by
  have := List.Perm.filterMap (fun i => l[i]?) h
  have e : (List.range l.length).filterMap (fun i => l[i]?) = l := takeAt_range l
  rw [e] at this
  exact this

theorem takeAt_getElem? {α : Type*} (l : List α) (idx : List ℕ) (h : ∀ i ∈ idx, i < l.length) (k : ℕ) : (takeAt l idx)[k]? = idx[k]?.bind fun i => l[i]? := by
  induction idx generalizing k with
  | nil => simp [takeAt]
  | cons i idx ih =>
    have hi := h i List.mem_cons_self
    have e : takeAt l (i :: idx) = l[i] :: takeAt l idx := by
      unfold takeAt
      rw [List.filterMap_cons_some (List.getElem?_eq_getElem hi)]
    rw [e]
    cases k with
    | zero => simp [List.getElem?_eq_getElem hi]
    | succ k => simpa using ih (fun j hj => h j (List.mem_cons_of_mem _ hj)) k

theorem extract_volumes_sorted (ev : List (K × K)) (tp : List (List (ThermalEntry K))) : (qhaExtract ev tp).volumes.Pairwise (· ≤ ·) := by
  have hs := argsort_sorted (ev.map (·.1))
  have hm : ∀ i ∈ argsort (ev.map (·.1)), i < (ev.map (·.1)).length := fun i hi => by
    rw [(argsort_perm _).mem_iff, List.mem_range] at hi; exact hi
  have e : (qhaExtract ev tp).volumes = (argsort (ev.map (·.1))).map fun i => (ev.map (·.1)).getD i 0 := by
    show takeAt (ev.map (·.1)) (argsort (ev.map (·.1))) = _
    apply List.ext_getElem? fun k => ?_
    rw [takeAt_getElem? _ _ hm, List.getElem?_map]
    cases hk : (argsort (ev.map (·.1)))[k]? with
    | none => rfl
    | some i =>
      have hi := hm i (List.mem_of_getElem? hk)
      simp only [Option.bind_some, Option.map_some, List.getD_eq_getElem?_getD, List.getElem?_eq_getElem hi, Option.getD_some]
  rw [e, List.pairwise_map]
  exact hs

/-- **C97**, thermal properties: for every volume-energy file (in any order) and its thermal properties files, the volumes passed to the quasi-harmonic calculation ascend and each volume goes with the energy, free energies, entropies and
heat capacities of its own row and file: nothing is lost, duplicated or mixed. -/
theorem C97_aligned (ev : List (K × K)) (tp : List (List (ThermalEntry K))) (hlen : ev.length = tp.length) :
    (qhaExtract ev tp).volumes.Pairwise (· ≤ ·) ∧
    ((qhaExtract ev tp).volumes.zip ((qhaExtract ev tp).energies.zip ((qhaExtract ev tp).freeEnergy.zip ((qhaExtract ev tp).entropy.zip (qhaExtract ev tp).cv)))).Perm
      ((ev.zip tp).map fun p => (p.1.1, p.1.2, p.2.map (·.freeEnergy), p.2.map (·.entropy), p.2.map (·.heatCapacity))) := by
  refine ⟨extract_volumes_sorted ev tp, ?_⟩
  have e1 : ev = (ev.zip tp).map (·.1) := by rw [List.map_fst_zip (by omega)]
  have e2 : tp = (ev.zip tp).map (·.2) := by rw [List.map_snd_zip (by omega)]
  have hp : (argsort (ev.map (·.1))).Perm (List.range (ev.zip tp).length) := by
    have := argsort_perm (ev.map (·.1))
    rwa [List.length_map, show ev.length = (ev.zip tp).length by rw [List.length_zip]; omega] at this
  set sort := argsort (ev.map (·.1)) with hsort
  set l := ev.zip tp with hl
  have f1 : (qhaExtract ev tp).volumes = (takeAt l sort).map fun p => p.1.1 := by
    show takeAt (ev.map (·.1)) sort = _
    rw [← takeAt_map]; congr 1
    conv_lhs => rw [e1]
    rw [List.map_map]; rfl
  have f2 : (qhaExtract ev tp).energies = (takeAt l sort).map fun p => p.1.2 := by
    show takeAt (ev.map (·.2)) sort = _
    rw [← takeAt_map]; congr 1
    conv_lhs => rw [e1]
    rw [List.map_map]; rfl
  have f3 : (qhaExtract ev tp).freeEnergy = (takeAt l sort).map fun p => p.2.map (·.freeEnergy) := by
    show takeAt (tp.map fun f => f.map (·.freeEnergy)) sort = _
    rw [← takeAt_map]; congr 1
    conv_lhs => rw [e2]
    rw [List.map_map]; rfl
  have f4 : (qhaExtract ev tp).entropy = (takeAt l sort).map fun p => p.2.map (·.entropy) := by
    show takeAt (tp.map fun f => f.map (·.entropy)) sort = _
    rw [← takeAt_map]; congr 1
    conv_lhs => rw [e2]
    rw [List.map_map]; rfl
  have f5 : (qhaExtract ev tp).cv = (takeAt l sort).map fun p => p.2.map (·.heatCapacity) := by
    show takeAt (tp.map fun f => f.map (·.heatCapacity)) sort = _
    rw [← takeAt_map]; congr 1
    conv_lhs => rw [e2]
    rw [List.map_map]; rfl
  rw [f1, f2, f3, f4, f5, List.zip_map', List.zip_map', List.zip_map', List.zip_map']
  exact (takeAt_perm l sort hp).map _

/-- **C97** and its violation, force constants: at least three distinct volumes, one force constants file each; `fc` is one element of the arrays, with different values in different files. The interpolated element at each volume of the
volume-energy file is that of its own file if and only if the volumes of the file are already in ascending order: otherwise the force constants of one volume are taken for those of another. -/
theorem C97_force_constants_iff (interp : List (K × K) → K → Option K) (hi : InterpolatesNodes interp) (ev : List (K × K)) (tp : List (List (ThermalEntry K))) (fc : List K) (hlen : fc.length = ev.length)
    (hn : 3 ≤ ev.length) (hv : (ev.map (·.1)).Nodup) (hfc : fc.Nodup) :
    (∀ (k : ℕ) (v : K) (x : K), (ev.map (·.1))[k]? = some v → fc[k]? = some x → qhaExtractFC interp ev tp fc v = some x) ↔ (ev.map (·.1)).Pairwise (· ≤ ·) := by
  have hpm := argsort_perm (ev.map (·.1))
  have hm : ∀ i ∈ argsort (ev.map (·.1)), i < (ev.map (·.1)).length := fun i hi => by
    rw [hpm.mem_iff, List.mem_range] at hi; exact hi
  have hvp : (qhaExtract ev tp).volumes.Perm (ev.map (·.1)) := takeAt_perm _ _ hpm
  have hvl : (qhaExtract ev tp).volumes.length = ev.length := by rw [hvp.length_eq, List.length_map]
  -- the interpolation at the nodes
  have hnode : ∀ (k : ℕ) (v x : K), (qhaExtract ev tp).volumes[k]? = some v → fc[k]? = some x → qhaExtractFC interp ev tp fc v = some x := by
    intro k v x h1 h2
    unfold qhaExtractFC
    refine hi _ (by rw [List.length_zip]; omega) ?_ (v, x) ?_
    · rw [List.map_fst_zip (by omega)]; exact hvp.nodup_iff.2 hv
    · have : ((qhaExtract ev tp).volumes.zip fc)[k]? = some (v, x) := List.getElem?_zip_eq_some.2 ⟨h1, h2⟩
      exact List.mem_of_getElem? this
  constructor
  · intro hall
    have hidx : ∀ k i : ℕ, (argsort (ev.map (·.1)))[k]? = some i → i = k := by
      intro k i hk
      have hil := hm i (List.mem_of_getElem? hk)
      have hkl : k < ev.length := by
        have := (List.getElem?_eq_some_iff.1 hk).1
        rw [hpm.length_eq, List.length_range, List.length_map] at this
        exact this
      have h1 : (qhaExtract ev tp).volumes[k]? = some (ev.map (·.1))[i] := by
        show (takeAt (ev.map (·.1)) (argsort (ev.map (·.1))))[k]? = _
        rw [takeAt_getElem? _ _ hm, hk, Option.bind_some, List.getElem?_eq_getElem hil]
      have hkf : k < fc.length := by omega
      have hif : i < fc.length := by rw [List.length_map] at hil; omega
      have a1 := hnode k _ fc[k] h1 (List.getElem?_eq_getElem hkf)
      have a2 := hall i _ fc[i] (List.getElem?_eq_getElem hil) (List.getElem?_eq_getElem hif)
      rw [a1, Option.some.injEq] at a2
      exact ((hfc.getElem_inj_iff).1 a2).symm
    have e : argsort (ev.map (·.1)) = List.range (ev.map (·.1)).length := by
      apply List.ext_getElem? fun k => ?_
      by_cases hk : k < (argsort (ev.map (·.1))).length
      · have h1 := List.getElem?_eq_getElem hk
        rw [h1, hidx k _ h1, List.getElem?_range (by rwa [hpm.length_eq, List.length_range] at hk)]
      · rw [List.getElem?_eq_none (by omega), List.getElem?_eq_none]
        rw [hpm.length_eq] at hk; omega
    have hs := extract_volumes_sorted ev tp
    have : (qhaExtract ev tp).volumes = ev.map (·.1) := by
      show takeAt (ev.map (·.1)) (argsort (ev.map (·.1))) = _
      rw [e, takeAt_range]
    rwa [this] at hs
  · intro hs k v x h1 h2
    have : (qhaExtract ev tp).volumes = ev.map (·.1) := List.Perm.eq_of_pairwise (fun a b _ _ h1 h2 => le_antisymm h1 h2) (extract_volumes_sorted ev tp) hs hvp
    exact hnode k v x (by rw [this]; exact h1) h2

/-- C97 is violated, an example: volumes 12, 10, 11 with the force constants 1, 2, 3: at the volume 12 the result is 3, the value of the file of volume 11. -/
theorem C97_force_constants_violated : qhaExtractFC exampleTools.interp [(12, 0), (10, 0), (11, 0)] [] [1, 2, 3] (12 : ℚ) = some 3 := by
  have : (qhaExtract [((12 : ℚ), (0 : ℚ)), (10, 0), (11, 0)] []).volumes = [10, 11, 12] := by decide +kernel
  unfold qhaExtractFC
  rw [this]
  simp [exampleTools]

/-- C97 is violated (temperatures): only the temperatures of the last thermal properties file are used: with other temperatures in the other files the result is the same. -/
theorem C97_temperatures_violated (ev : List (K × K)) (tp : List (List (ThermalEntry K))) (last : List (ThermalEntry K)) (g : ThermalEntry K → K) :
    qhaExtract ev (tp.map (fun f => f.map fun e => { e with temperature := g e }) ++ [last]) = qhaExtract ev (tp ++ [last]) := by
  unfold qhaExtract
  simp [List.map_map, Function.comp_def]

end extract

end Verif
