import Verif.Model.BandRun
import Verif.Props.Outputs
import Verif.Props.MeshData

/-! # C131: linewidths and shifts along a path belong to the phonon of the branch -/

set_option autoImplicit false
set_option linter.unusedSectionVars false

namespace Verif

/-! ## Specification -/

/-- Specification: `f` and the columns of `E` are the frequencies and eigenvectors of the dynamical matrix `D`, in some order. -/
def SolvedAt {n : ℕ} (factor : ℝ) (D : Matrix (Fin n) (Fin n) ℂ) (f : Fin n → ℝ) (E : Matrix (Fin n) (Fin n) ℂ) : Prop :=
  Orthonormal' E ∧ ∃ lam : Fin n → ℝ, D * E = E * Matrix.diagonal (fun i => (lam i : ℂ)) ∧ ∀ i, f i = phonopyFrequency factor (lam i)

/-- Specification: the segment holds the solutions for the wave vectors `qs`. -/
def Solves {n : ℕ} {Q : Type} (factor : ℝ) (D : Q → Matrix (Fin n) (Fin n) ℂ) (qs : List Q) (s : Segment n) : Prop :=
  s.freq.length = qs.length ∧ s.ev.length = qs.length ∧
    ∀ (k : ℕ) (q : Q) (f : Fin n → ℝ) (E : Matrix (Fin n) (Fin n) ℂ), qs[k]? = some q → s.freq[k]? = some f → s.ev[k]? = some E → SolvedAt factor (D q) f E

/-- Specification: along the whole segment every branch of `ref` has its own partner in `s`, with an overlap (squared) above one half. -/
def Follows {n : ℕ} (ref s : Segment n) : Prop :=
  ∃ σ : Fin n → Fin n, ∀ p ∈ ref.ev.zip s.ev, ∀ i, 1 / 2 < overlap p.1 p.2 i (σ i) ^ 2

/-- Specification: in the dictionary `d`, branch `b` has the value `x` at the wave vector number `k` of the segment. -/
def Lists (d : List (ℕ × List ℝ)) (b k : ℕ) (x : ℝ) : Prop := ∃ v, (b, v) ∈ d ∧ v[k]? = some x

/-! ## Eigenvectors of matrices with the same eigenvectors -/

section eigen
variable {n : ℕ} {E F G : Matrix (Fin n) (Fin n) ℂ} {lam mu : Fin n → ℝ}

theorem overlap_eigen (hE : Orthonormal' E) (h : dynmatFromEigen E lam * F = F * Matrix.diagonal (fun i => (mu i : ℂ))) (j b : Fin n) (hne : (E.conjTranspose * F) j b ≠ 0) : lam j = mu b := by
  have h1 : Matrix.diagonal (fun i => (lam i : ℂ)) * (E.conjTranspose * F) = (E.conjTranspose * F) * Matrix.diagonal (fun i => (mu i : ℂ)) := by
    have := congrArg (E.conjTranspose * ·) h
    simp only [dynmatFromEigen, ← Matrix.mul_assoc] at this
    unfold Orthonormal' at hE
    rw [hE, Matrix.one_mul] at this
    simpa only [Matrix.mul_assoc] using this
  have h2 := congrFun (congrFun h1 j) b
  rw [Matrix.diagonal_mul, Matrix.mul_diagonal, mul_comm] at h2
  have := mul_left_cancel₀ hne h2
  exact_mod_cast this

theorem branch_mode (hE : Orthonormal' E) (hF : Orthonormal' F) (h : dynmatFromEigen E lam * F = F * Matrix.diagonal (fun i => (mu i : ℂ))) (hlam : Function.Injective lam) :
    ∃ s : Equiv.Perm (Fin n), ∀ b, lam (s b) = mu b ∧ ∀ j, j ≠ s b → (E.conjTranspose * F) j b = 0 := by
  have hE' : E * E.conjTranspose = 1 := mul_eq_one_comm.1 hE
  have hC : (E.conjTranspose * F).conjTranspose * (E.conjTranspose * F) = 1 := by
    rw [Matrix.conjTranspose_mul, Matrix.conjTranspose_conjTranspose, Matrix.mul_assoc, ← Matrix.mul_assoc E, hE', Matrix.one_mul]
    exact hF
  have hex : ∀ b, ∃ j, (E.conjTranspose * F) j b ≠ 0 := by
    intro b
    by_contra hc
    push Not at hc
    have := congrFun (congrFun hC b) b
    rw [Matrix.mul_apply, Matrix.one_apply_eq] at this
    simp [hc] at this
  choose s hs using hex
  have hl : ∀ b, lam (s b) = mu b := fun b => overlap_eigen hE h _ _ (hs b)
  have hz : ∀ b j, j ≠ s b → (E.conjTranspose * F) j b = 0 := by
    intro b j hj
    by_contra hc
    exact hj (hlam ((overlap_eigen hE h _ _ hc).trans (hl b).symm))
  have hinj : Function.Injective s := by
    intro b b' hbb
    by_contra hne
    have h1 := congrFun (congrFun hC b) b'
    rw [Matrix.mul_apply, Matrix.one_apply_ne hne, Finset.sum_eq_single (s b)] at h1
    · rw [Matrix.conjTranspose_apply, mul_eq_zero, star_eq_zero] at h1
      rcases h1 with h1 | h1
      · exact hs b h1
      · rw [hbb] at h1; exact hs b' h1
    · intro j _ hj
      rw [hz b' j (by rwa [← hbb]), mul_zero]
    · simp
  exact ⟨Equiv.ofBijective s (Finite.injective_iff_bijective.1 hinj), fun b => ⟨hl b, hz b⟩⟩

theorem partner_mode {nu : Fin n → ℝ} (hE : Orthonormal' E) (s : Fin n → Fin n) (b : Fin n) (hz : ∀ j, j ≠ s b → (E.conjTranspose * F) j b = 0)
    (h : dynmatFromEigen E nu * G = G * Matrix.diagonal (fun i => (mu i : ℂ))) (c : Fin n) (hov : overlap F G b c ≠ 0) : nu (s b) = mu c := by
  have hE' : E * E.conjTranspose = 1 := mul_eq_one_comm.1 hE
  have h1 : (F.conjTranspose * G) b c = star ((E.conjTranspose * F) (s b) b) * (E.conjTranspose * G) (s b) c := by
    have : F.conjTranspose * G = (E.conjTranspose * F).conjTranspose * (E.conjTranspose * G) := by
      rw [Matrix.conjTranspose_mul, Matrix.conjTranspose_conjTranspose, Matrix.mul_assoc, ← Matrix.mul_assoc E, hE', Matrix.one_mul]
    rw [this, Matrix.mul_apply, Finset.sum_eq_single (s b)]
    · rw [Matrix.conjTranspose_apply]
    · intro j _ hj
      rw [Matrix.conjTranspose_apply, hz j hj, star_zero, zero_mul]
    · simp
  refine overlap_eigen hE h _ _ fun h0 => hov ?_
  unfold overlap
  rw [h1, h0, mul_zero, norm_zero]

end eigen

/-! ## Segments -/

section segments
variable {n : ℕ} {Q : Type}

theorem SolvedAt.reorder {factor : ℝ} {D : Matrix (Fin n) (Fin n) ℂ} {f : Fin n → ℝ} {E : Matrix (Fin n) (Fin n) ℂ} (h : SolvedAt factor D f E) (σ : Equiv.Perm (Fin n)) :
    SolvedAt factor D (reorderBands f σ) (E.submatrix id σ) := by
  obtain ⟨ho, lam, h1, h2⟩ := h
  refine ⟨?_, fun i => lam (σ i), ?_, fun i => h2 _⟩
  · unfold Orthonormal' at ho ⊢
    ext i j
    have := congrFun (congrFun ho (σ i)) (σ j)
    simp only [Matrix.mul_apply, Matrix.conjTranspose_apply, Matrix.one_apply, EmbeddingLike.apply_eq_iff_eq] at this
    simpa [Matrix.mul_apply, Matrix.conjTranspose_apply, Matrix.one_apply] using this
  · ext i j
    have := congrFun (congrFun h1 i) (σ j)
    rw [Matrix.mul_diagonal] at this ⊢
    simpa [Matrix.mul_apply] using this

theorem Solves.reorder {factor : ℝ} {D : Q → Matrix (Fin n) (Fin n) ℂ} {qs : List Q} {s : Segment n} (h : Solves factor D qs s) (σ : Equiv.Perm (Fin n)) : Solves factor D qs (s.reorder σ) := by
  obtain ⟨h1, h2, h3⟩ := h
  refine ⟨by simp [Segment.reorder, h1], by simp [Segment.reorder, h2], fun k q f E hq hf hE => ?_⟩
  simp only [Segment.reorder, List.getElem?_map, Option.map_eq_some_iff] at hf hE
  obtain ⟨f', hf', rfl⟩ := hf
  obtain ⟨E', hE', rfl⟩ := hE
  exact (h3 k q f' E' hq hf' hE').reorder σ

theorem holds_lists {d : List (ℕ × List ℝ)} {a : FreqTable ℝ} (h : Holds d a) (b k : ℕ) (hb : b < a.branches) (hk : k < a.points) : Lists d b k (a.val k b) := by
  obtain ⟨v, h1, _, h2⟩ := h.2.2 b hb
  exact ⟨v, h1, h2 k hk⟩

theorem table_val (s : Segment n) (k : ℕ) (f : Fin n → ℝ) (h : s.freq[k]? = some f) (b : Fin n) : s.table.val k b = f b := by
  simp [Segment.table, List.getD_eq_getElem?_getD, h]

theorem setOrder_length (H X : List (Segment n)) (h : H.length = X.length) : (setOrder H X).length = X.length := by simp [setOrder, h]

theorem setOrder_get (H X : List (Segment n)) (i : ℕ) (a x : Segment n) (ha : H[i]? = some a) (hx : X[i]? = some x) :
    (setOrder H X)[i]? = some { x with freq := x.freq.map fun f => reorderBands f fun j => (eigenvectorOrder a.ev x.ev j).getD j } := by
  have h1 : (H.zip X)[i]? = some (a, x) := by rw [List.getElem?_zip_eq_some]; exact ⟨ha, hx⟩
  unfold setOrder
  have hlt : i < (H.zip X).length := (List.getElem?_eq_some_iff.1 h1).1
  rw [List.getElem?_append_left (by simpa using hlt), List.getElem?_map, h1]
  rfl

/-- The order of a segment whose branches follow: the frequency of branch `b` at wave vector `k` is that of an eigenvector that overlaps with the one of `b`. -/
theorem setOrder_follows {factor : ℝ} {Dh Dx : Q → Matrix (Fin n) (Fin n) ℂ} {qs : List Q} (hqs : qs ≠ []) (H X : List (Segment n)) (i : ℕ) (a x : Segment n) (ha : H[i]? = some a) (hx : X[i]? = some x)
    (sa : Solves factor Dh qs a) (sx : Solves factor Dx qs x) (hf : Follows a x) :
    ∃ y, (setOrder H X)[i]? = some y ∧ y.freq.length = qs.length ∧ ∃ σ : Fin n → Fin n, ∀ (k : ℕ) (F G : Matrix (Fin n) (Fin n) ℂ) (g : Fin n → ℝ), a.ev[k]? = some F → x.ev[k]? = some G → x.freq[k]? = some g →
      y.freq[k]? = some (fun b => g (σ b)) ∧ ∀ b, overlap F G b (σ b) ≠ 0 := by
  refine ⟨_, setOrder_get H X i a x ha hx, by simp [sx.1], ?_⟩
  obtain ⟨σ, hσ⟩ := hf
  have horth : ∀ (s : Segment n) (D : Q → Matrix (Fin n) (Fin n) ℂ), Solves factor D qs s → ∀ E ∈ s.ev, Orthonormal' E := by
    intro s D hs E hE
    obtain ⟨k, hk, rfl⟩ := List.getElem_of_mem hE
    have h1 : k < qs.length := by rw [← hs.2.1]; exact hk
    have h2 : k < s.freq.length := by rw [hs.1]; exact h1
    exact (hs.2.2 k _ _ _ (List.getElem?_eq_getElem h1) (List.getElem?_eq_getElem h2) (List.getElem?_eq_getElem hk)).1
  have hne : a.ev.zip x.ev ≠ [] := by
    intro h
    have h1 : (a.ev.zip x.ev).length = 0 := by rw [h]; rfl
    rw [List.length_zip, sa.2.1, sx.2.1, min_self] at h1
    exact hqs (List.length_eq_zero_iff.1 h1)
  obtain ⟨h1, _, _⟩ := C68_permutation_partial a.ev x.ev hne (horth a _ sa) (horth x _ sx) σ hσ
  refine ⟨σ, fun k F G g hF hG hg => ⟨?_, fun b h0 => ?_⟩⟩
  · simp only [List.getElem?_map, hg, Option.map_some, Option.some.injEq]
    funext b
    simp [reorderBands, h1]
  · have hm : (F, G) ∈ a.ev.zip x.ev := by
      refine List.mem_of_getElem? (i := k) ?_
      rw [List.getElem?_zip_eq_some]; exact ⟨hF, hG⟩
    have := hσ _ hm b
    rw [h0] at this
    norm_num at this

end segments

/-! ## The bands -/

section bands
variable {na nd : ℕ} {Com L : Type} {factor : ℝ} {tools : BandTools (na * nd) Com} {data : ComData (na * nd) Com} {resolution : ℕ} {ranges : List ((Fin 3 → ℝ) × (Fin 3 → ℝ))}

/-- Specification: the dynamical matrix phonopy gets at a wave vector for the numbers `values` at the commensurate points. -/
noncomputable def renormalizedField (factor : ℝ) (tools : BandTools (na * nd) Com) (data : ComData (na * nd) Com) (values : Com → Fin (na * nd) → ℝ) (q : Fin 3 → ℝ) : Matrix (Fin (na * nd)) (Fin (na * nd)) ℂ :=
  tools.interpolate (fun p => renormalizedDynmat na nd factor (values p) (data.eigenvectors p)) q

theorem harmonicSegments_get {connection interconnect : Bool}
    (hH : ∀ r ∈ ranges, Solves factor tools.harmonic (bandPoints resolution r.1 r.2) (tools.run tools.harmonic connection (bandPoints resolution r.1 r.2)))
    (hj : interconnect = true → List.IsChain Joined (ranges.map fun (r : (Fin 3 → ℝ) × (Fin 3 → ℝ)) => tools.run tools.harmonic connection (bandPoints resolution r.1 r.2))) :
    (harmonicSegments tools resolution ranges connection interconnect).length = ranges.length ∧
    ∀ (i : ℕ) (r : (Fin 3 → ℝ) × (Fin 3 → ℝ)), ranges[i]? = some r → ∃ a, (harmonicSegments tools resolution ranges connection interconnect)[i]? = some a ∧ Solves factor tools.harmonic (bandPoints resolution r.1 r.2) a := by
  have hb : (bandPaths resolution ranges).map (tools.run tools.harmonic connection) = ranges.map (fun (r : (Fin 3 → ℝ) × (Fin 3 → ℝ)) => tools.run tools.harmonic connection (bandPoints resolution r.1 r.2)) := by
    simp [bandPaths, List.map_map, Function.comp_def]
  unfold harmonicSegments
  rw [hb]
  cases interconnect with
  | false =>
    simp only [Bool.false_eq_true, if_false, List.length_map, List.getElem?_map, true_and]
    intro i r hi
    refine ⟨_, by rw [hi]; rfl, hH r (List.mem_of_getElem? hi)⟩
  | true =>
    simp only [if_true]
    have h2 := (C93_connected _ (hj rfl)).2
    refine ⟨by rw [← h2.length_eq, List.length_map], fun i r hi => ?_⟩
    have hlt : i < ranges.length := (List.getElem?_eq_some_iff.1 hi).1
    have hlt2 : i < (reconnectEigenvectors (ranges.map fun r => tools.run tools.harmonic connection (bandPoints resolution r.1 r.2))).length := by
      rw [← h2.length_eq, List.length_map]; exact hlt
    obtain ⟨σ, hσ⟩ := (List.forall₂_iff_get.1 h2).2 i (by simpa using hlt) hlt2
    refine ⟨_, List.getElem?_eq_getElem hlt2, ?_⟩
    rw [List.get_eq_getElem, List.get_eq_getElem, List.getElem_map] at hσ
    rw [hσ]
    have hr : ranges[i] = r := (List.getElem?_eq_some_iff.1 hi).2
    rw [hr]
    exact (hH r (List.mem_of_getElem? hi)).reorder σ

theorem renormalizedSegments_length {connection interconnect : Bool} (values : Com → Fin (na * nd) → ℝ)
    (hl : (harmonicSegments tools resolution ranges connection interconnect).length = ranges.length) :
    (renormalizedSegments factor tools data resolution ranges connection interconnect values).length = ranges.length := by
  unfold renormalizedSegments
  cases connection with
  | false => simp [bandPaths]
  | true =>
    simp only [if_true]
    rw [setOrder_length]
    · simp [bandPaths]
    · rw [hl]; simp [bandPaths]

/-- **C131** (bands connected by eigenvectors, as in the file that is written and in the plots of linewidths and shifts): at every wave vector of the path that is a commensurate point `p` (for phonopy the dynamical matrix
there is the one at `p`) with different harmonic frequencies, each branch of the result belongs to one phonon of `p`, a different one for each branch: the harmonic frequency, the renormalized frequency, the shift, the
limits and the linewidth listed for the branch are those of that phonon, provided that along the segment each branch keeps more than half of its eigenvector in the renormalized bands. Missing in general:
`C131_unconnected_violated`, `C68_violated`. -/
theorem C131_modes_partial (hfac : 0 < factor) (interconnect : Bool) (labels : Option (List (L × L))) (withLinewidths : Bool)
    (E : Com → Matrix (Fin (na * nd)) (Fin (na * nd)) ℂ) (hE : ∀ p, Orthonormal' (E p)) (hdata : ∀ p, data.eigenvectors p = arrangeEv na nd (entries (E p)))
    (hH : ∀ r ∈ ranges, Solves factor tools.harmonic (bandPoints resolution r.1 r.2) (tools.run tools.harmonic true (bandPoints resolution r.1 r.2)))
    (hR : ∀ values, ∀ r ∈ ranges, Solves factor (renormalizedField factor tools data values) (bandPoints resolution r.1 r.2)
      (tools.run (renormalizedField factor tools data values) true (bandPoints resolution r.1 r.2)))
    (hj : interconnect = true → List.IsChain Joined (ranges.map fun (r : (Fin 3 → ℝ) × (Fin 3 → ℝ)) => tools.run tools.harmonic true (bandPoints resolution r.1 r.2)))
    (hd : (tools.distances (bandPaths resolution ranges)).length = ranges.length) (hl : ∀ l, labels = some l → l.length = ranges.length) :
    ∃ bands, renormalizedBands factor tools data resolution ranges labels withLinewidths interconnect true = some bands ∧ bands.length = ranges.length ∧
      ∀ (i : ℕ) (r : (Fin 3 → ℝ) × (Fin 3 → ℝ)) (band : BandData ℝ (Fin 3 → ℝ) L) (a : Segment (na * nd)), ranges[i]? = some r → bands[i]? = some band →
        (harmonicSegments tools resolution ranges true interconnect)[i]? = some a →
        (∀ values ∈ [data.frequencies, fun p s => data.frequencies p s + data.linewidths p s / 2, fun p s => data.frequencies p s - data.linewidths p s / 2],
          Follows a (tools.run (renormalizedField factor tools data values) true (bandPoints resolution r.1 r.2))) →
        ∀ (k : ℕ) (q : Fin 3 → ℝ) (p : Com) (h : Fin (na * nd) → ℝ), (bandPoints resolution r.1 r.2)[k]? = some q → (∀ D, tools.interpolate D q = D p) →
          tools.harmonic q = dynmatFromEigen (E p) (fun s => dynEigenvalue factor (h s)) → Function.Injective h →
          ∃ s : Equiv.Perm (Fin (na * nd)), ∀ b : Fin (na * nd),
            Lists band.harmonic b k (h (s b)) ∧ Lists band.renormalized b k (data.frequencies p (s b)) ∧ Lists band.shifts b k (data.frequencies p (s b) - h (s b)) ∧
            (withLinewidths = true → ∃ plus minus width, band.plus = some plus ∧ band.minus = some minus ∧ band.linewidth = some width ∧
              Lists plus b k (data.frequencies p (s b) + data.linewidths p (s b) / 2) ∧ Lists minus b k (data.frequencies p (s b) - data.linewidths p (s b) / 2) ∧
              Lists width b k (data.linewidths p (s b))) := by
  obtain ⟨hlenH, hgetH⟩ := harmonicSegments_get (interconnect := interconnect) hH hj
  have hlenR := fun values => renormalizedSegments_length (factor := factor) (data := data) values hlenH
  obtain ⟨bands, hb, hblen, hbands⟩ := C93_dictionary ranges labels (tools.distances (bandPaths resolution ranges))
    ((harmonicSegments tools resolution ranges true interconnect).map Segment.table)
    ((renormalizedSegments factor tools data resolution ranges true interconnect data.frequencies).map Segment.table)
    ((renormalizedSegments factor tools data resolution ranges true interconnect fun p s => data.frequencies p s + data.linewidths p s / 2).map Segment.table)
    ((renormalizedSegments factor tools data resolution ranges true interconnect fun p s => data.frequencies p s - data.linewidths p s / 2).map Segment.table)
    withLinewidths hd.symm (by rw [List.length_map, hlenH, hd]) (by rw [List.length_map, hlenR, hd]) (by rw [List.length_map, hlenR, hd]) (by rw [List.length_map, hlenR, hd])
    (fun l h => by rw [hl l h, hd])
  refine ⟨bands, ?_, by rw [hblen, hd], ?_⟩
  · rw [← hb]; cases withLinewidths <;> rfl
  intro i r band a hi hband ha hfol k q p h hk hq hharm hinj
  have hilt : i < (tools.distances (bandPaths resolution ranges)).length := by rw [hd]; exact (List.getElem?_eq_some_iff.1 hi).1
  obtain ⟨band', r', th, ta, ts, tm, e0, _, eh, ea, es, em, _, _, _, _, hHh, hHa, hHs, _, hw⟩ := hbands i hilt
  rw [hband, Option.some.injEq] at e0
  subst e0
  obtain ⟨a', ha', sa⟩ := hgetH i r hi
  rw [ha, Option.some.injEq] at ha'
  subst ha'
  have hklt : k < (bandPoints resolution r.1 r.2).length := (List.getElem?_eq_some_iff.1 hk).1
  have hqs : bandPoints resolution r.1 r.2 ≠ [] := fun h0 => by rw [h0] at hklt; simp at hklt
  -- the harmonic branches
  have haf : k < a.freq.length := by rw [sa.1]; exact hklt
  have hae : k < a.ev.length := by rw [sa.2.1]; exact hklt
  obtain ⟨hFo, mu, hmu, hfm⟩ := sa.2.2 k q _ _ hk (List.getElem?_eq_getElem haf) (List.getElem?_eq_getElem hae)
  rw [hharm] at hmu
  obtain ⟨s, hs⟩ := branch_mode (hE p) hFo hmu (fun x y hxy => hinj (by
    have := congrArg (phonopyFrequency factor) hxy
    rwa [phonopyFrequency_dynEigenvalue _ _ hfac, phonopyFrequency_dynEigenvalue _ _ hfac] at this))
  have hharmv : ∀ b, a.freq[k] b = h (s b) := fun b => by rw [hfm, ← (hs b).1, phonopyFrequency_dynEigenvalue _ _ hfac]
  -- the renormalized branches
  have hren : ∀ values : Com → Fin (na * nd) → ℝ, Follows a (tools.run (renormalizedField factor tools data values) true (bandPoints resolution r.1 r.2)) →
      ∃ y, (renormalizedSegments factor tools data resolution ranges true interconnect values)[i]? = some y ∧ y.freq.length = (bandPoints resolution r.1 r.2).length ∧
        y.freq[k]? = some fun b => values p (s b) := by
    intro values hf
    have hX : ((bandPaths resolution ranges).map (tools.run (tools.interpolate fun p => renormalizedDynmat na nd factor (values p) (data.eigenvectors p)) true))[i]? =
        some (tools.run (renormalizedField factor tools data values) true (bandPoints resolution r.1 r.2)) := by
      simp only [bandPaths, List.map_map, List.getElem?_map, hi, Option.map_some]
      rfl
    have sx := hR values r (List.mem_of_getElem? hi)
    obtain ⟨y, hy, hyl, σ, hσ⟩ := setOrder_follows hqs _ _ i _ _ ha hX sa sx hf
    refine ⟨y, by simpa [renormalizedSegments] using hy, hyl, ?_⟩
    have hxf : k < (tools.run (renormalizedField factor tools data values) true (bandPoints resolution r.1 r.2)).freq.length := by rw [sx.1]; exact hklt
    have hxe : k < (tools.run (renormalizedField factor tools data values) true (bandPoints resolution r.1 r.2)).ev.length := by rw [sx.2.1]; exact hklt
    obtain ⟨_, nu, hnu, hgn⟩ := sx.2.2 k q _ _ hk (List.getElem?_eq_getElem hxf) (List.getElem?_eq_getElem hxe)
    obtain ⟨hy1, hy2⟩ := hσ k _ _ _ (List.getElem?_eq_getElem hae) (List.getElem?_eq_getElem hxe) (List.getElem?_eq_getElem hxf)
    rw [hy1, Option.some.injEq]
    funext b
    unfold renormalizedField at hnu
    rw [hq, hdata, renormalizedDynmat_eq] at hnu
    rw [hgn]
    have := partner_mode (hE p) s b (hs b).2 hnu (σ b) (hy2 b)
    rw [← this, phonopyFrequency_dynEigenvalue _ _ hfac]
  obtain ⟨y1, g1, l1, v1⟩ := hren data.frequencies (hfol data.frequencies (by simp))
  obtain ⟨y2, g2, l2, v2⟩ := hren _ (hfol (fun p s => data.frequencies p s + data.linewidths p s / 2) (by simp))
  obtain ⟨y3, g3, l3, v3⟩ := hren _ (hfol (fun p s => data.frequencies p s - data.linewidths p s / 2) (by simp))
  rw [List.getElem?_map, ha, Option.map_some, Option.some.injEq] at eh
  rw [List.getElem?_map, g1, Option.map_some, Option.some.injEq] at ea
  rw [List.getElem?_map, g2, Option.map_some, Option.some.injEq] at es
  rw [List.getElem?_map, g3, Option.map_some, Option.some.injEq] at em
  subst eh; subst ea; subst es; subst em
  refine ⟨s, fun b => ⟨?_, ?_, ?_, fun hwl => ?_⟩⟩
  · have := holds_lists hHh b k b.2 haf
    rwa [table_val a k _ (List.getElem?_eq_getElem haf), hharmv] at this
  · have := holds_lists hHa b k b.2 (by rw [show y1.table.points = y1.freq.length from rfl, l1]; exact hklt)
    rwa [table_val y1 k _ v1] at this
  · have := holds_lists hHs b k b.2 (by rw [show y1.table.points = y1.freq.length from rfl, l1]; exact hklt)
    simp only at this
    rwa [table_val y1 k _ v1, table_val a k _ (List.getElem?_eq_getElem haf), hharmv] at this
  · obtain ⟨x, y, z, hx, hy, hz, h1, h2, h3⟩ := hw hwl
    refine ⟨y, x, z, hy, hx, hz, ?_, ?_, ?_⟩
    · have := holds_lists h2 b k b.2 (by rw [show y2.table.points = y2.freq.length from rfl, l2]; exact hklt)
      rwa [table_val y2 k _ v2] at this
    · have := holds_lists h1 b k b.2 (by rw [show y3.table.points = y3.freq.length from rfl, l3]; exact hklt)
      rwa [table_val y3 k _ v3] at this
    · have := holds_lists h3 b k b.2 (by rw [show y2.table.points = y2.freq.length from rfl, l2]; exact hklt)
      simp only at this
      rw [table_val y2 k _ v2, table_val y3 k _ v3] at this
      have e : data.frequencies p (s b) + data.linewidths p (s b) / 2 - (data.frequencies p (s b) - data.linewidths p (s b) / 2) = data.linewidths p (s b) := by ring
      rwa [e] at this

end bands

/-! ## Bands in the order of the frequencies -/

theorem monotone_perm_eq {n : ℕ} (a m : Fin n → ℝ) (hm : Monotone m) (hp : (List.ofFn m).Perm (List.ofFn a)) : m = a ∘ Tuple.sort a := by
  apply List.ofFn_injective
  refine List.Perm.eq_of_pairwise (le := (· ≤ ·)) (fun _ _ _ _ => le_antisymm) ?_ ?_ (hp.trans (Equiv.Perm.ofFn_comp_perm (Tuple.sort a) a).symm)
  · exact (List.pairwise_ofFn).2 fun i j h => hm h.le
  · exact (List.pairwise_ofFn).2 fun i j h => Tuple.monotone_sort a h.le

/-- Sorting keeps `≤`. -/
theorem sorted_le {n : ℕ} (a b m u : Fin n → ℝ) (hm : Monotone m) (hu : Monotone u) (hpm : (List.ofFn m).Perm (List.ofFn a)) (hpu : (List.ofFn u).Perm (List.ofFn b)) (hab : ∀ s, a s ≤ b s) (i : Fin n) :
    m i ≤ u i := by
  have e1 := monotone_perm_eq a m hm hpm
  have e2 := monotone_perm_eq b u hu hpu
  by_contra hc
  push Not at hc
  have hmap : ∀ j ∈ Finset.Iic i, (Tuple.sort a).symm (Tuple.sort b j) ∈ Finset.Iio i := by
    intro j hj
    rw [Finset.mem_Iic] at hj
    rw [Finset.mem_Iio]
    by_contra hk
    push Not at hk
    have h1 : m i ≤ a (Tuple.sort b j) := by
      have := hm hk
      rw [e1] at this ⊢
      simpa using this
    have h2 : b (Tuple.sort b j) ≤ u i := by
      have := hu hj
      rw [e2] at this ⊢
      simpa using this
    linarith [hab (Tuple.sort b j)]
  have := Finset.card_le_card_of_injOn _ hmap (fun x _ y _ h => (Tuple.sort b).injective ((Tuple.sort a).symm.injective h))
  simp at this

section sorted
variable {na nd : ℕ} {Com L : Type} {factor : ℝ} {tools : BandTools (na * nd) Com} {data : ComData (na * nd) Com} {resolution : ℕ} {ranges : List ((Fin 3 → ℝ) × (Fin 3 → ℝ))}

theorem solvedAt_perm {n : ℕ} {factor : ℝ} (hfac : 0 < factor) {E F : Matrix (Fin n) (Fin n) ℂ} (hE : Orthonormal' E) {v f : Fin n → ℝ}
    (h : SolvedAt factor (dynmatFromEigen E fun i => dynEigenvalue factor (v i)) f F) : (List.ofFn f).Perm (List.ofFn v) := by
  obtain ⟨hF, lam, h1, h2⟩ := h
  have hF' : F * F.conjTranspose = 1 := mul_eq_one_comm.1 hF
  have h3 : dynmatFromEigen E (fun i => dynEigenvalue factor (v i)) = dynmatFromEigen F lam := by
    have := congrArg (· * F.conjTranspose) h1
    simp only [Matrix.mul_assoc] at this
    rw [hF', Matrix.mul_one] at this
    rw [this, dynmatFromEigen, Matrix.mul_assoc]
  have h4 := conj_charpoly_roots E hE fun i => dynEigenvalue factor (v i)
  rw [h3, conj_charpoly_roots F hF lam] at h4
  have h5 := congrArg (Multiset.map (phonopyFrequency factor)) h4
  rw [Multiset.map_map, Multiset.map_map] at h5
  rw [← Multiset.coe_eq_coe, List.ofFn_eq_map, List.ofFn_eq_map, ← Multiset.map_coe, ← Multiset.map_coe]
  have h6 : ((List.finRange n : List (Fin n)) : Multiset (Fin n)) = (Finset.univ : Finset (Fin n)).val := rfl
  rw [h6]
  refine Eq.trans ?_ (h5.trans ?_)
  · exact Multiset.map_congr rfl fun i _ => h2 i
  · exact Multiset.map_congr rfl fun i _ => phonopyFrequency_dynEigenvalue _ _ hfac

/-- **C131** (bands in the order of the frequencies, as in the plot of the renormalized bands): at a commensurate point of the path the renormalized frequencies and the two limits are those of the phonons there, each in ascending order. The linewidths
listed are not negative and their sum is that of the phonons, but branch by branch the pair of limits is the pair of one phonon if and only if no two pairs of limits are nested. -/
theorem C131_sorted_partial (hfac : 0 < factor) (labels : Option (List (L × L)))
    (E : Com → Matrix (Fin (na * nd)) (Fin (na * nd)) ℂ) (hE : ∀ p, Orthonormal' (E p)) (hdata : ∀ p, data.eigenvectors p = arrangeEv na nd (entries (E p)))
    (hR : ∀ values, ∀ r ∈ ranges, Solves factor (renormalizedField factor tools data values) (bandPoints resolution r.1 r.2)
      (tools.run (renormalizedField factor tools data values) false (bandPoints resolution r.1 r.2)) ∧
      ∀ f ∈ (tools.run (renormalizedField factor tools data values) false (bandPoints resolution r.1 r.2)).freq, Monotone f)
    (hd : (tools.distances (bandPaths resolution ranges)).length = ranges.length) (hl : ∀ l, labels = some l → l.length = ranges.length) :
    ∃ bands, renormalizedBands factor tools data resolution ranges labels true false false = some bands ∧ bands.length = ranges.length ∧
      ∀ (i : ℕ) (r : (Fin 3 → ℝ) × (Fin 3 → ℝ)) (band : BandData ℝ (Fin 3 → ℝ) L), ranges[i]? = some r → bands[i]? = some band →
        ∀ (k : ℕ) (q : Fin 3 → ℝ) (p : Com), (bandPoints resolution r.1 r.2)[k]? = some q → (∀ D, tools.interpolate D q = D p) →
          ∃ (f m u : Fin (na * nd) → ℝ) (plus minus width : List (ℕ × List ℝ)), band.plus = some plus ∧ band.minus = some minus ∧ band.linewidth = some width ∧
            Monotone f ∧ Monotone m ∧ Monotone u ∧ (List.ofFn f).Perm (List.ofFn (data.frequencies p)) ∧
            (List.ofFn m).Perm (List.ofFn fun s => data.frequencies p s - data.linewidths p s / 2) ∧ (List.ofFn u).Perm (List.ofFn fun s => data.frequencies p s + data.linewidths p s / 2) ∧
            (∀ b : Fin (na * nd), Lists band.renormalized b k (f b) ∧ Lists minus b k (m b) ∧ Lists plus b k (u b) ∧ Lists width b k (u b - m b)) ∧
            ((∀ s, 0 ≤ data.linewidths p s) → ∀ b, 0 ≤ u b - m b) ∧ ∑ b, (u b - m b) = ∑ s, data.linewidths p s ∧
            ((List.ofFn fun b => (m b, u b)).Perm (List.ofFn fun s => (data.frequencies p s - data.linewidths p s / 2, data.frequencies p s + data.linewidths p s / 2)) ↔
              ∀ s s', data.frequencies p s - data.linewidths p s / 2 < data.frequencies p s' - data.linewidths p s' / 2 →
                data.frequencies p s + data.linewidths p s / 2 ≤ data.frequencies p s' + data.linewidths p s' / 2) := by
  have hlenH : (harmonicSegments tools resolution ranges false false).length = ranges.length := by simp [harmonicSegments, bandPaths]
  have hlenR := fun values => renormalizedSegments_length (factor := factor) (data := data) (interconnect := false) values hlenH
  obtain ⟨bands, hb, hblen, hbands⟩ := C93_dictionary ranges labels (tools.distances (bandPaths resolution ranges))
    ((harmonicSegments tools resolution ranges false false).map Segment.table)
    ((renormalizedSegments factor tools data resolution ranges false false data.frequencies).map Segment.table)
    ((renormalizedSegments factor tools data resolution ranges false false fun p s => data.frequencies p s + data.linewidths p s / 2).map Segment.table)
    ((renormalizedSegments factor tools data resolution ranges false false fun p s => data.frequencies p s - data.linewidths p s / 2).map Segment.table)
    true hd.symm (by rw [List.length_map, hlenH, hd]) (by rw [List.length_map, hlenR, hd]) (by rw [List.length_map, hlenR, hd]) (by rw [List.length_map, hlenR, hd])
    (fun l h => by rw [hl l h, hd])
  refine ⟨bands, hb, by rw [hblen, hd], ?_⟩
  intro i r band hi hband k q p hk hq
  have hilt : i < (tools.distances (bandPaths resolution ranges)).length := by rw [hd]; exact (List.getElem?_eq_some_iff.1 hi).1
  obtain ⟨band', r', th, ta, ts, tm, e0, _, eh, ea, es, em, _, _, _, _, hHh, hHa, hHs, _, hw⟩ := hbands i hilt
  rw [hband, Option.some.injEq] at e0
  subst e0
  have hklt : k < (bandPoints resolution r.1 r.2).length := (List.getElem?_eq_some_iff.1 hk).1
  have hren : ∀ values : Com → Fin (na * nd) → ℝ, ∃ (y : Segment (na * nd)) (g : Fin (na * nd) → ℝ), (renormalizedSegments factor tools data resolution ranges false false values)[i]? = some y ∧
      y.freq.length = (bandPoints resolution r.1 r.2).length ∧ y.freq[k]? = some g ∧ Monotone g ∧ (List.ofFn g).Perm (List.ofFn (values p)) := by
    intro values
    obtain ⟨sx, hmono⟩ := hR values r (List.mem_of_getElem? hi)
    have hxf : k < (tools.run (renormalizedField factor tools data values) false (bandPoints resolution r.1 r.2)).freq.length := by rw [sx.1]; exact hklt
    have hxe : k < (tools.run (renormalizedField factor tools data values) false (bandPoints resolution r.1 r.2)).ev.length := by rw [sx.2.1]; exact hklt
    refine ⟨tools.run (renormalizedField factor tools data values) false (bandPoints resolution r.1 r.2), _, ?_, sx.1, List.getElem?_eq_getElem hxf, hmono _ (List.getElem_mem _), ?_⟩
    · simp only [renormalizedSegments, bandPaths, List.map_map, Bool.false_eq_true, if_false, List.getElem?_map, hi, Option.map_some]
      rfl
    · have h1 := sx.2.2 k q _ _ hk (List.getElem?_eq_getElem hxf) (List.getElem?_eq_getElem hxe)
      unfold renormalizedField at h1
      rw [hq, hdata, renormalizedDynmat_eq] at h1
      exact solvedAt_perm hfac (hE p) h1
  obtain ⟨y1, f, g1, l1, v1, m1, p1⟩ := hren data.frequencies
  obtain ⟨y2, u, g2, l2, v2, m2, p2⟩ := hren fun p s => data.frequencies p s + data.linewidths p s / 2
  obtain ⟨y3, m, g3, l3, v3, m3, p3⟩ := hren fun p s => data.frequencies p s - data.linewidths p s / 2
  rw [List.getElem?_map, g1, Option.map_some, Option.some.injEq] at ea
  rw [List.getElem?_map, g2, Option.map_some, Option.some.injEq] at es
  rw [List.getElem?_map, g3, Option.map_some, Option.some.injEq] at em
  subst ea; subst es; subst em
  obtain ⟨x, y, z, hx, hy, hz, h1, h2, h3⟩ := hw rfl
  refine ⟨f, m, u, y, x, z, hy, hx, hz, m1, m3, m2, p1, p3, p2, fun b => ⟨?_, ?_, ?_, ?_⟩, fun hw0 b => ?_, ?_, ?_⟩
  · have := holds_lists hHa b k b.2 (by rw [show y1.table.points = y1.freq.length from rfl, l1]; exact hklt)
    rwa [table_val y1 k _ v1] at this
  · have := holds_lists h1 b k b.2 (by rw [show y3.table.points = y3.freq.length from rfl, l3]; exact hklt)
    rwa [table_val y3 k _ v3] at this
  · have := holds_lists h2 b k b.2 (by rw [show y2.table.points = y2.freq.length from rfl, l2]; exact hklt)
    rwa [table_val y2 k _ v2] at this
  · have := holds_lists h3 b k b.2 (by rw [show y2.table.points = y2.freq.length from rfl, l2]; exact hklt)
    simp only at this
    rwa [table_val y2 k _ v2, table_val y3 k _ v3] at this
  · have := sorted_le _ _ m u m3 m2 p3 p2 (fun s => by linarith [hw0 s]) b
    linarith
  · have e1 := p2.sum_eq
    have e2 := p3.sum_eq
    rw [List.sum_ofFn, List.sum_ofFn] at e1 e2
    rw [Finset.sum_sub_distrib, e1, e2, ← Finset.sum_sub_distrib]
    exact Finset.sum_congr rfl fun s _ => by ring
  · have := zip_sorted_pairs (fun s => data.frequencies p s - data.linewidths p s / 2) (fun s => data.frequencies p s + data.linewidths p s / 2) (List.ofFn m) (List.ofFn u)
      (List.pairwise_ofFn.2 fun i j h => m3 h.le) (List.pairwise_ofFn.2 fun i j h => m2 h.le) p3 p2
    rw [← this]
    have e : (List.ofFn m).zip (List.ofFn u) = List.ofFn fun b => (m b, u b) := List.ext_getElem (by simp) fun i h1 h2 => by simp
    rw [e]

end sorted

/-! ## A concrete crystal -/

/-- phonopy for diagonal dynamical matrices: the frequencies in the order of the axes if bands are connected, in ascending order otherwise. -/
noncomputable def diagonalRun (D : (Fin 3 → ℝ) → Matrix (Fin (1 * 3)) (Fin (1 * 3)) ℂ) (connection : Bool) (qs : List (Fin 3 → ℝ)) : Segment (1 * 3) :=
  let f := fun q i => phonopyFrequency 1 (D q i i).re
  let σ := fun q => if connection then 1 else Tuple.sort (f q)
  { freq := qs.map fun q => reorderBands (f q) (σ q), ev := qs.map fun q => (1 : Matrix (Fin (1 * 3)) (Fin (1 * 3)) ℂ).submatrix id (σ q) }

/-- A crystal with one atom and harmonic frequencies 1, 2, 3, in which every wave vector is the commensurate point. -/
noncomputable def oneAtomTools : BandTools (1 * 3) Unit :=
  { run := diagonalRun
    distances := fun paths => paths.map fun p => p.map fun q => q 0
    harmonic := fun _ => dynmatFromEigen 1 fun s => dynEigenvalue 1 (![1, 2, 3] s)
    interpolate := fun D _ => D () }

/-- Frequencies 1, 11/10, 2 and linewidths 1/2, 1/10, 0: the limits of the first two phonons are nested. -/
noncomputable def oneAtomData : ComData (1 * 3) Unit :=
  { frequencies := fun _ => ![1, 11 / 10, 2], linewidths := fun _ => ![1 / 2, 1 / 10, 0], eigenvectors := fun _ => arrangeEv 1 3 (entries (1 : Matrix (Fin (1 * 3)) (Fin (1 * 3)) ℂ)) }

theorem diagonalRun_solves (values : Fin (1 * 3) → ℝ) (connection : Bool) (qs : List (Fin 3 → ℝ)) :
    Solves 1 (fun _ => dynmatFromEigen 1 fun s => dynEigenvalue 1 (values s)) qs (diagonalRun (fun _ => dynmatFromEigen 1 fun s => dynEigenvalue 1 (values s)) connection qs) ∧
    (connection = false → ∀ f ∈ (diagonalRun (fun _ => dynmatFromEigen 1 fun s => dynEigenvalue 1 (values s)) connection qs).freq, Monotone f) := by
  have hD : dynmatFromEigen (1 : Matrix (Fin (1 * 3)) (Fin (1 * 3)) ℂ) (fun s => dynEigenvalue 1 (values s)) = Matrix.diagonal fun s => (dynEigenvalue 1 (values s) : ℂ) := by
    simp [dynmatFromEigen]
  have hbase : SolvedAt 1 (dynmatFromEigen 1 fun s => dynEigenvalue 1 (values s)) (fun i => phonopyFrequency 1 ((dynmatFromEigen (1 : Matrix (Fin (1 * 3)) (Fin (1 * 3)) ℂ) fun s => dynEigenvalue 1 (values s)) i i).re) 1 := by
    refine ⟨by simp [Orthonormal'], fun s => dynEigenvalue 1 (values s), by rw [hD]; simp, fun i => by rw [hD]; simp⟩
  constructor
  · refine ⟨by simp [diagonalRun], by simp [diagonalRun], fun k q f E hq hf hE => ?_⟩
    simp only [diagonalRun, List.getElem?_map, hq, Option.map_some, Option.some.injEq] at hf hE
    subst hf; subst hE
    exact hbase.reorder _
  · rintro rfl f hf
    simp only [diagonalRun, List.mem_map] at hf
    obtain ⟨q, _, rfl⟩ := hf
    exact Tuple.monotone_sort fun i => phonopyFrequency 1 ((dynmatFromEigen (1 : Matrix (Fin (1 * 3)) (Fin (1 * 3)) ℂ) fun s => dynEigenvalue 1 (values s)) i i).re

/-- `C131_modes_partial` applies: at each of the three wave vectors of the path the file has the linewidths 1/2, 1/10, 0 next to the frequencies 1, 11/10, 2 and the shifts 0, -9/10, -1. -/
example : ∃ (bands : List (BandData ℝ (Fin 3 → ℝ) Unit)) (band : BandData ℝ (Fin 3 → ℝ) Unit) (s : Equiv.Perm (Fin (1 * 3))), renormalizedBands (L := Unit) 1 oneAtomTools oneAtomData 2 [(0, ![1/2, 0, 0])] none true false true = some bands ∧ bands[0]? = some band ∧
    ∀ b : Fin (1 * 3), Lists band.renormalized b 1 (![1, 11 / 10, 2] (s b)) ∧ Lists band.shifts b 1 (![1, 11 / 10, 2] (s b) - ![1, 2, 3] (s b)) ∧
      ∃ width, band.linewidth = some width ∧ Lists width b 1 (![1 / 2, 1 / 10, 0] (s b)) := by
  have hrun : ∀ values, renormalizedField 1 oneAtomTools oneAtomData values = fun _ => dynmatFromEigen 1 fun s => dynEigenvalue 1 (values () s) := by
    intro values
    funext q
    exact renormalizedDynmat_eq 1 3 1 _ 1
  obtain ⟨bands, h1, h2, h3⟩ := C131_modes_partial (L := Unit) (tools := oneAtomTools) (data := oneAtomData) (resolution := 2) (ranges := [(0, ![1/2, 0, 0])]) one_pos false none true
    (fun _ => 1) (fun _ => by simp [Orthonormal']) (fun _ => rfl) (fun r _ => (diagonalRun_solves _ _ _).1) (fun values r _ => by rw [hrun]; exact (diagonalRun_solves _ _ _).1) (by simp) (by simp [oneAtomTools, bandPaths]) (by simp)
  have hlen : 0 < bands.length := by rw [h2]; simp
  have hfol : ∀ values r, Follows (diagonalRun (fun _ => dynmatFromEigen 1 fun s => dynEigenvalue 1 (![1, 2, 3] s)) true r) (oneAtomTools.run (renormalizedField 1 oneAtomTools oneAtomData values) true r) := by
    intro values r
    refine ⟨id, fun p hp i => ?_⟩
    simp only [oneAtomTools, diagonalRun, if_true, Equiv.Perm.coe_one, List.zip_map', List.mem_map] at hp
    obtain ⟨q, _, rfl⟩ := hp
    simp [overlap]
    norm_num
  obtain ⟨s, hs⟩ := h3 0 _ _ _ rfl (List.getElem?_eq_getElem hlen) rfl (fun values _ => hfol values _) 1 _ () ![1, 2, 3] rfl (fun _ => rfl) rfl
    (by intro x y h; fin_cases x <;> fin_cases y <;> simp at h ⊢)
  refine ⟨bands, _, s, h1, List.getElem?_eq_getElem hlen, fun b => ?_⟩
  obtain ⟨_, a2, a3, a4⟩ := hs b
  obtain ⟨_, _, width, _, _, hw, _, _, hl⟩ := a4 rfl
  exact ⟨a2, a3, width, hw, hl⟩

/-- **C131** is violated when the branches are in the order of the frequencies: for frequencies 1, 11/10, 2 with linewidths 1/2, 1/10, 0 the linewidths drawn are 2/5, 1/5, 0, at every wave vector of any path. -/
theorem C131_unconnected_violated (resolution : ℕ) (ranges : List ((Fin 3 → ℝ) × (Fin 3 → ℝ))) :
    ∃ bands, renormalizedBands (L := Unit) 1 oneAtomTools oneAtomData resolution ranges none true false false = some bands ∧ bands.length = ranges.length ∧
      ∀ (i : ℕ) (r : (Fin 3 → ℝ) × (Fin 3 → ℝ)) (band : BandData ℝ (Fin 3 → ℝ) Unit), ranges[i]? = some r → bands[i]? = some band → ∀ (k : ℕ) (q : Fin 3 → ℝ), (bandPoints resolution r.1 r.2)[k]? = some q →
        ∃ width, band.linewidth = some width ∧ ∀ b : Fin 3, Lists band.renormalized b k (![1, 11 / 10, 2] b) ∧ Lists width b k (![2 / 5, 1 / 5, 0] b) := by
  have hrun : ∀ values, renormalizedField 1 oneAtomTools oneAtomData values = fun _ => dynmatFromEigen 1 fun s => dynEigenvalue 1 (values () s) := by
    intro values
    funext q
    exact renormalizedDynmat_eq 1 3 1 _ 1
  obtain ⟨bands, h1, h2, h3⟩ := C131_sorted_partial (L := Unit) (tools := oneAtomTools) (data := oneAtomData) (resolution := resolution) (ranges := ranges) one_pos none
    (fun _ => 1) (fun _ => by simp [Orthonormal']) (fun _ => rfl) (fun values r _ => by rw [hrun]; exact ⟨(diagonalRun_solves _ _ _).1, (diagonalRun_solves _ _ _).2 rfl⟩) (by simp [oneAtomTools, bandPaths]) (by simp)
  refine ⟨bands, h1, h2, fun i r band hi hb k q hk => ?_⟩
  obtain ⟨f, m, u, plus, minus, width, hp, hm, hw, mf, mm, mu, pf, pm, pu, hL, _⟩ := h3 i r band hi hb k q () hk (fun _ => rfl)
  have hu : ∀ (g v t : Fin (1 * 3) → ℝ), Monotone g → (List.ofFn g).Perm (List.ofFn v) → Monotone t → (List.ofFn t).Perm (List.ofFn v) → g = t := by
    intro g v t hg pg ht pt
    rw [monotone_perm_eq v g hg pg, monotone_perm_eq v t ht pt]
  have hmono : ∀ x y z : ℝ, x ≤ y → y ≤ z → Monotone (![x, y, z] : Fin (1 * 3) → ℝ) := by
    intro x y z hxy hyz a b hab
    fin_cases a <;> fin_cases b <;> simp at hab ⊢ <;> linarith
  have ef := hu f _ ![1, 11 / 10, 2] mf pf (hmono _ _ _ (by norm_num) (by norm_num)) (List.Perm.refl _)
  have em := hu m _ ![3 / 4, 21 / 20, 2] mm pm (hmono _ _ _ (by norm_num) (by norm_num)) (by
    have : (fun s => oneAtomData.frequencies () s - oneAtomData.linewidths () s / 2) = ![3 / 4, 21 / 20, 2] := by
      funext s; fin_cases s <;> simp [oneAtomData] <;> norm_num
    rw [this])
  have eu := hu u _ ![23 / 20, 5 / 4, 2] mu pu (hmono _ _ _ (by norm_num) (by norm_num)) (by
    have : (fun s => oneAtomData.frequencies () s + oneAtomData.linewidths () s / 2) = ![5 / 4, 23 / 20, 2] := by
      funext s; fin_cases s <;> simp [oneAtomData] <;> norm_num
    rw [this]
    simp only [Nat.reduceMul, List.ofFn_succ, List.ofFn_zero]
    exact List.Perm.swap _ _ _)
  refine ⟨width, hw, fun b => ?_⟩
  obtain ⟨a1, _, _, a4⟩ := hL b
  rw [ef] at a1
  refine ⟨a1, ?_⟩
  have : u b - m b = ![2 / 5, 1 / 5, 0] b := by rw [eu, em]; fin_cases b <;> simp <;> norm_num
  rwa [this] at a4

/-! ## The plots -/

section plots
variable {Q L : Type}

theorem lookup_nodup {d : List (ℕ × List ℝ)} (hd : (d.map Prod.fst).Nodup) {j : ℕ} {v : List ℝ} (h : (j, v) ∈ d) : branchOf d j = some v := by
  unfold branchOf
  rw [List.lookup_eq_some_iff]
  obtain ⟨l1, l2, rfl⟩ := List.append_of_mem h
  refine ⟨l1, l2, rfl, fun p hp => ?_⟩
  rw [List.map_append, List.nodup_append] at hd
  have := hd.2.2 p.1 (List.mem_map_of_mem hp) j (by simp)
  simpa using fun e : j = p.1 => this e.symm

/-- Specification: the keys are `branch_0`, …, `branch_(n-1)`. -/
def Branches (n : ℕ) (d : List (ℕ × List ℝ)) : Prop := (d.map Prod.fst).Nodup ∧ d.length = n ∧ ∀ j < n, ∃ v, (j, v) ∈ d

theorem figure_get (n : ℕ) (bands : List (BandData ℝ Q L)) (get : BandData ℝ Q L → Option (List (ℕ × List ℝ))) (h : ∀ b ∈ bands, ∃ d, get b = some d ∧ Branches n d) :
    ∃ f, (bands.mapM fun path => (List.range n).mapM fun j => do
      let d ← get path
      let branch ← branchOf d j
      some (path.distances, branch)) = some f ∧ f.length = bands.length ∧
      ∀ (i : ℕ) (b : BandData ℝ Q L) (d : List (ℕ × List ℝ)), bands[i]? = some b → get b = some d → ∃ curves, f[i]? = some curves ∧ curves.length = n ∧ ∀ j v, (j, v) ∈ d → j < n → curves[j]? = some (b.distances, v) := by
  induction bands with
  | nil => exact ⟨[], rfl, rfl, by simp⟩
  | cons b bs ih =>
    obtain ⟨f, hf, hl, hg⟩ := ih fun x hx => h x (List.mem_cons_of_mem _ hx)
    obtain ⟨d, hd, hbr⟩ := h b List.mem_cons_self
    have hinner : ((List.range n).mapM fun j => do
        let d ← get b
        let branch ← branchOf d j
        some (b.distances, branch)) = some ((List.range n).map fun j => (b.distances, (branchOf d j).getD [])) := by
      refine mapM_range_some _ _ n fun j hj => ?_
      obtain ⟨v, hv⟩ := hbr.2.2 j hj
      simp [hd, lookup_nodup hbr.1 hv]
    refine ⟨((List.range n).map fun j => (b.distances, (branchOf d j).getD [])) :: f, ?_, by simp [hl], ?_⟩
    · rw [List.mapM_cons, hinner, hf]
      rfl
    · intro i b' d' hi hd'
      cases i with
      | zero =>
        simp only [List.getElem?_cons_zero, Option.some.injEq] at hi
        subst hi
        rw [hd, Option.some.injEq] at hd'
        subst hd'
        refine ⟨_, rfl, by simp, fun j v hv hj => ?_⟩
        simp [hj, lookup_nodup hbr.1 hv]
      | succ i =>
        simp only [List.getElem?_cons_succ] at hi ⊢
        exact hg i b' d' hi hd'

/-- **C131**: the plot of linewidths and shifts has four figures, which show, in this order, the linewidths, the harmonic frequencies, the shifts and the renormalized frequencies of every branch of every segment against the distances of that segment. -/
theorem C131_figures (n : ℕ) (bands : List (BandData ℝ Q L)) (hne : bands ≠ [])
    (hb : ∀ b ∈ bands, (∃ w, b.linewidth = some w ∧ Branches n w) ∧ Branches n b.harmonic ∧ Branches n b.shifts ∧ Branches n b.renormalized) :
    ∃ f0 f1 f2 f3, bandFigures bands = some [f0, f1, f2, f3] ∧
      ∀ (figure : List (List (List ℝ × List ℝ))) (get : BandData ℝ Q L → Option (List (ℕ × List ℝ))),
        (figure, get) ∈ [(f0, BandData.linewidth), (f1, fun b => some b.harmonic), (f2, fun b => some b.shifts), (f3, fun b => some b.renormalized)] →
        figure.length = bands.length ∧ ∀ (i : ℕ) (b : BandData ℝ Q L) (d : List (ℕ × List ℝ)), bands[i]? = some b → get b = some d →
          ∃ curves, figure[i]? = some curves ∧ curves.length = n ∧ ∀ j v, (j, v) ∈ d → j < n → curves[j]? = some (b.distances, v) := by
  obtain ⟨f0, h0, l0, g0⟩ := figure_get n bands BandData.linewidth fun b h => (hb b h).1
  obtain ⟨f1, h1, l1, g1⟩ := figure_get n bands (fun b => some b.harmonic) fun b h => ⟨_, rfl, (hb b h).2.1⟩
  obtain ⟨f2, h2, l2, g2⟩ := figure_get n bands (fun b => some b.shifts) fun b h => ⟨_, rfl, (hb b h).2.2.1⟩
  obtain ⟨f3, h3, l3, g3⟩ := figure_get n bands (fun b => some b.renormalized) fun b h => ⟨_, rfl, (hb b h).2.2.2⟩
  refine ⟨f0, f1, f2, f3, ?_, ?_⟩
  · cases bands with
    | nil => exact absurd rfl hne
    | cons b bs =>
      obtain ⟨⟨w, hw, hwb⟩, _⟩ := hb b List.mem_cons_self
      unfold bandFigures
      simp only [List.head?_cons, Option.bind_eq_bind, Option.bind_some, hw, hwb.2.1]
      simp only [Option.bind_eq_bind, Option.bind_some] at h0 h1 h2 h3
      rw [h0, h1, h2, h3]
      rfl
  · intro figure get h
    simp only [List.mem_cons, Prod.mk.injEq, List.not_mem_nil, or_false] at h
    rcases h with ⟨rfl, rfl⟩ | ⟨rfl, rfl⟩ | ⟨rfl, rfl⟩ | ⟨rfl, rfl⟩
    · exact ⟨l0, g0⟩
    · exact ⟨l1, g1⟩
    · exact ⟨l2, g2⟩
    · exact ⟨l3, g3⟩

/-- **C131**: the plot of the renormalized bands: for a segment with `n` branches the curves of the renormalized frequencies, then (on request) those of the harmonic ones, then (on request) areas of the linewidth around the renormalized frequency. -/
theorem C131_areas (b : BandData ℝ Q L) (w : List (ℕ × List ℝ)) (hw : b.linewidth = some w) (plotHarmonic : Bool) :
    ∃ drawings, segmentDrawings true plotHarmonic b = some drawings ∧ segmentDrawings false plotHarmonic b = some (drawings.take (drawings.length - min b.renormalized.length w.length)) ∧
      (∀ (j k : ℕ) (f l : List ℝ), b.renormalized[j]? = some (k, f) → BandDrawing.curve false b.distances f ∈ drawings ∧
        (∀ k', w[j]? = some (k', l) → ∃ upper lower, BandDrawing.area b.distances upper lower ∈ drawings ∧ ∀ (i : ℕ) (x y : ℝ), f[i]? = some x → l[i]? = some y → upper[i]? = some (x + y / 2) ∧ lower[i]? = some (x - y / 2))) ∧
      (∀ x y, BandDrawing.curve true x y ∈ drawings ↔ plotHarmonic = true ∧ x = b.distances ∧ ∃ j, (j, y) ∈ b.harmonic) := by
  refine ⟨_, by simp only [segmentDrawings, if_true, hw, Option.map_some]; rfl, ?_, ?_, ?_⟩
  · simp only [segmentDrawings, Bool.false_eq_true, if_false, Option.some.injEq]
    rw [List.take_append_of_le_length]
    · rw [List.take_of_length_le]; simp [dictValues]; omega
    · simp [dictValues]; omega
  · intro j k f l hj
    refine ⟨?_, fun k' hk' => ?_⟩
    · simp only [List.mem_append, List.mem_map, dictValues]
      exact Or.inl (Or.inl ⟨f, ⟨_, List.mem_of_getElem? hj, rfl⟩, rfl⟩)
    · refine ⟨_, _, List.mem_append_right _ (List.mem_map.2 ⟨(f, l), ?_, rfl⟩), fun i x y hx hy => ?_⟩
      · refine List.mem_of_getElem? (i := j) ?_
        rw [List.getElem?_zip_eq_some]
        simp [dictValues, hj, hk']
      · constructor <;> rw [List.getElem?_zipWith, hx, hy]
  · intro x y
    cases plotHarmonic <;> simp [dictValues] <;> grind

/-- **C131**: the legend of that plot: in a plot of at least one segment with at least one branch, the curve named 'Harmonic' is a harmonic one and the curve named 'Renormalized' a renormalized one. -/
theorem C131_legend (bands : List (BandData ℝ Q L)) (hne : bands ≠ []) (hb : ∀ b ∈ bands, b.harmonic ≠ [] ∧ b.renormalized ≠ []) (plotLinewidths : Bool) (drawings : List BandDrawing)
    (hd : bandDrawings bands plotLinewidths true = some drawings) :
    ∃ x y x' y', bandLegend drawings = some (.curve true x y, .curve false x' y') := by
  have hseg : ∀ b ∈ bands, ∀ ds, segmentDrawings plotLinewidths true b = some ds → ∃ x y x' y', (ds.filter BandDrawing.isCurve).head? = some (.curve false x' y') ∧
      (ds.filter BandDrawing.isCurve).getLast? = some (.curve true x y) := by
    intro b hbm ds hds
    obtain ⟨h1, h2⟩ := hb b hbm
    have hform : ∃ areas : List BandDrawing, (∀ a ∈ areas, ∃ x u l, a = .area x u l) ∧
        ds = (dictValues b.renormalized).map (BandDrawing.curve false b.distances) ++ (dictValues b.harmonic).map (BandDrawing.curve true b.distances) ++ areas := by
      cases plotLinewidths with
      | false =>
        simp only [segmentDrawings, Bool.false_eq_true, if_false, if_true, Option.some.injEq] at hds
        exact ⟨[], by simp, by rw [← hds, List.append_nil]⟩
      | true =>
        simp only [segmentDrawings, if_true, Option.map_eq_some_iff] at hds
        obtain ⟨w, _, rfl⟩ := hds
        refine ⟨_, ?_, rfl⟩
        intro a ha
        obtain ⟨p, _, rfl⟩ := List.mem_map.1 ha
        exact ⟨_, _, _, rfl⟩
    obtain ⟨areas, ha, rfl⟩ := hform
    have hfa : areas.filter BandDrawing.isCurve = [] := by
      rw [List.filter_eq_nil_iff]
      intro a h
      obtain ⟨x, u, l, rfl⟩ := ha a h
      simp [BandDrawing.isCurve]
    have hfc : ∀ (c : Bool) (l : List (List ℝ)), (l.map (BandDrawing.curve c b.distances)).filter BandDrawing.isCurve = l.map (BandDrawing.curve c b.distances) := by
      intro c l
      rw [List.filter_eq_self]
      intro a h
      obtain ⟨p, _, rfl⟩ := List.mem_map.1 h
      rfl
    rw [List.filter_append, List.filter_append, hfa, hfc, hfc, List.append_nil]
    obtain ⟨⟨k, v⟩, t, ht⟩ := List.exists_cons_of_ne_nil h2
    obtain ⟨t', ⟨k', v'⟩, ht'⟩ := List.eq_nil_or_concat b.harmonic |>.resolve_left h1
    refine ⟨b.distances, v', b.distances, v, ?_, ?_⟩
    · rw [ht]; rfl
    · rw [ht']; simp [dictValues]
  have hgen : ∀ (bs : List (BandData ℝ Q L)) (ds : List BandDrawing), bs ≠ [] → (∀ b ∈ bs, b ∈ bands) → bandDrawings bs plotLinewidths true = some ds →
      ∃ x y x' y', (ds.filter BandDrawing.isCurve).head? = some (.curve false x' y') ∧ (ds.filter BandDrawing.isCurve).getLast? = some (.curve true x y) := by
    intro bs
    induction bs with
    | nil => intro _ h; exact absurd rfl h
    | cons b bs ih =>
      intro ds _ hmem h
      unfold bandDrawings at h
      rw [List.mapM_cons] at h
      cases h1 : segmentDrawings plotLinewidths true b with
      | none => rw [h1] at h; simp at h
      | some d1 =>
        cases h2 : bs.mapM (segmentDrawings plotLinewidths true) with
        | none => rw [h1, h2] at h; simp at h
        | some d2 =>
          rw [h1, h2] at h
          simp only [Option.pure_def, Option.bind_eq_bind, Option.bind_some, Option.map_some, List.flatten_cons, Option.some.injEq] at h
          obtain ⟨x, y, x', y', e1, e2⟩ := hseg b (hmem b List.mem_cons_self) d1 h1
          subst h
          rw [List.filter_append]
          by_cases hbs : bs = []
          · subst hbs
            simp only [List.mapM_nil, Option.pure_def, Option.some.injEq] at h2
            subst h2
            exact ⟨x, y, x', y', by simp [e1], by simp [e2]⟩
          · obtain ⟨u, v, _, _, _, e4⟩ := ih d2.flatten hbs (fun c hc => hmem c (List.mem_cons_of_mem _ hc)) (by unfold bandDrawings; rw [h2]; rfl)
            refine ⟨u, v, x', y', ?_, ?_⟩
            · rw [List.head?_append, e1]; rfl
            · rw [List.getLast?_append, e4]; rfl
  obtain ⟨x, y, x', y', e1, e2⟩ := hgen bands drawings hne (fun _ h => h) hd
  refine ⟨x, y, x', y', ?_⟩
  unfold bandLegend
  simp only [e1, e2]

/-- One segment with two wave vectors and two branches. -/
def twoBranches : BandData ℝ ℕ Unit :=
  { distances := [0, 1], inf := 0, sup := 1, harmonic := [(0, [1, 2]), (1, [3, 4])], renormalized := [(0, [2, 2]), (1, [5, 5])], shifts := [(0, [1, 0]), (1, [2, 1])], linewidth := some [(0, [1, 1]), (1, [0, 0])] }

/-- `C131_figures`, `C131_areas` and `C131_legend` apply. -/
example : ∃ f0 f1 f2 f3 : List (List (List ℝ × List ℝ)),
    bandFigures [twoBranches] = some [f0, f1, f2, f3] ∧ ∃ c, f2[0]? = some c ∧ c[1]? = some ([0, 1], [2, 1]) := by
  have hbr : ∀ u v : List ℝ, Branches 2 [(0, u), (1, v)] := fun u v => ⟨by simp, rfl, fun j hj => (show j = 0 ∨ j = 1 by omega).elim (fun h => ⟨u, by simp [h]⟩) (fun h => ⟨v, by simp [h]⟩)⟩
  obtain ⟨f0, f1, f2, f3, h, hf⟩ := C131_figures 2 [twoBranches] (by simp) (by simp only [List.mem_singleton, forall_eq]; exact ⟨⟨_, rfl, hbr _ _⟩, hbr _ _, hbr _ _, hbr _ _⟩)
  obtain ⟨c, h1, _, h2⟩ := (hf f2 (fun b => some b.shifts) (by simp)).2 0 twoBranches _ rfl rfl
  exact ⟨f0, f1, f2, f3, h, c, h1, h2 1 [2, 1] (by simp [twoBranches]) (by norm_num)⟩

example : ∃ x y x' y', (bandDrawings [({ distances := [0], inf := 0, sup := 1, harmonic := [(0, [1])], renormalized := [(0, [2])], shifts := [(0, [1])] } : BandData ℝ ℕ Unit)] false true).bind bandLegend
    = some (.curve true x y, .curve false x' y') := by
  obtain ⟨x, y, x', y', h⟩ := C131_legend [({ distances := [0], inf := 0, sup := 1, harmonic := [(0, [1])], renormalized := [(0, [2])], shifts := [(0, [1])] } : BandData ℝ ℕ Unit)] (by simp) (by simp) false _ rfl
  exact ⟨x, y, x', y', h⟩

end plots

end Verif
