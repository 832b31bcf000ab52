import Verif.Model.MeshData
import Verif.Props.PhonopyLink
import Mathlib.Data.List.Sort
import Mathlib.Data.Prod.Lex
import Mathlib.Data.Fin.Tuple.Sort

/-! # C125: frequencies and linewidths on a mesh -/

set_option autoImplicit false

namespace Verif

open Polynomial

theorem conj_charpoly_roots {n : ℕ} (E : Matrix (Fin n) (Fin n) ℂ) (hE : E.conjTranspose * E = 1) (lam : Fin n → ℝ) :
    (dynmatFromEigen E lam).charpoly.roots.map Complex.re = (Finset.univ : Finset (Fin n)).val.map lam := by
  have hE' : E * E.conjTranspose = 1 := mul_eq_one_comm.1 hE
  have h : (dynmatFromEigen E lam).charpoly = (Matrix.diagonal fun i => (lam i : ℂ)).charpoly := by
    have := Matrix.charpoly_units_conj (⟨E, E.conjTranspose, hE', hE⟩ : (Matrix (Fin n) (Fin n) ℂ)ˣ) (Matrix.diagonal fun i => (lam i : ℂ))
    rw [Matrix.inv_eq_right_inv (show ((⟨E, E.conjTranspose, hE', hE⟩ : (Matrix (Fin n) (Fin n) ℂ)ˣ) : Matrix (Fin n) (Fin n) ℂ) * E.conjTranspose = 1 from hE')] at this
    exact this
  rw [h, Matrix.charpoly_diagonal, Polynomial.roots_prod _ _ (Finset.prod_ne_zero_iff.mpr fun i _ => Polynomial.X_sub_C_ne_zero _)]
  simp only [Polynomial.roots_X_sub_C]
  rw [Multiset.bind_singleton, Multiset.map_map]
  simp

theorem dynEigenvalue_mono {factor : ℝ} (hf : 0 < factor) : Monotone (dynEigenvalue factor) := by
  intro a b h
  unfold dynEigenvalue
  have h1 : a / factor ≤ b / factor := by gcongr
  set x := a / factor
  set y := b / factor
  rcases lt_trichotomy x 0 with hx | hx | hx <;> rcases lt_trichotomy y 0 with hy | hy | hy <;>
    simp only [sign_neg, sign_pos, hx, hy, sign_zero] <;> simp <;> nlinarith

theorem phonopyFrequency_mono {factor : ℝ} (hf : 0 < factor) : Monotone (phonopyFrequency factor) := by
  intro a b h
  by_contra hc
  push Not at hc
  have h1 := dynEigenvalue_mono hf hc.le
  rw [dynEigenvalue_phonopyFrequency factor _ hf, dynEigenvalue_phonopyFrequency factor _ hf] at h1
  have : a = b := le_antisymm h h1
  rw [this] at hc
  exact lt_irrefl _ hc

/-- At a commensurate point phonopy gives back the numbers that were used as frequencies, in ascending order. -/
theorem phonopyRow_sorted (na nd : ℕ) {factor : ℝ} (hf : 0 < factor) (values : Fin (na * nd) → ℝ) (E : Matrix (Fin (na * nd)) (Fin (na * nd)) ℂ) (hE : E.conjTranspose * E = 1) :
    (phonopyRow factor (renormalizedDynmat na nd factor values (arrangeEv na nd (entries E)))).Pairwise (· ≤ ·) ∧
    (phonopyRow factor (renormalizedDynmat na nd factor values (arrangeEv na nd (entries E)))).Perm (List.ofFn values) := by
  unfold phonopyRow
  rw [renormalizedDynmat_eq, conj_charpoly_roots E hE]
  constructor
  · rw [List.pairwise_map]
    exact (Multiset.pairwise_sort _ _).imp fun h => phonopyFrequency_mono hf h
  · rw [← Multiset.coe_eq_coe, ← Multiset.map_coe, Multiset.sort_eq, Multiset.map_map]
    rw [List.ofFn_eq_map, ← Multiset.map_coe]
    simp only [Function.comp_def, phonopyFrequency_dynEigenvalue factor _ hf]
    rfl

/-- The pairs (frequency, linewidth) that the rows of the two arrays show are the pairs of the modes exactly if the order of the linewidths is the order of the frequencies. -/
theorem zip_sorted_pairs {n : ℕ} (a b : Fin n → ℝ) (x y : List ℝ) (hx : x.Pairwise (· ≤ ·)) (hy : y.Pairwise (· ≤ ·)) (hxa : x.Perm (List.ofFn a)) (hyb : y.Perm (List.ofFn b)) :
    (x.zip y).Perm (List.ofFn fun i => (a i, b i)) ↔ ∀ i j, a i < a j → b i ≤ b j := by
  have hlen : x.length = y.length := by rw [hxa.length_eq, hyb.length_eq]; simp
  constructor
  · intro h i j hij
    have hi : (a i, b i) ∈ x.zip y := h.mem_iff.mpr (List.mem_ofFn.mpr ⟨i, rfl⟩)
    have hj : (a j, b j) ∈ x.zip y := h.mem_iff.mpr (List.mem_ofFn.mpr ⟨j, rfl⟩)
    obtain ⟨k, hk, hke⟩ := List.getElem_of_mem hi
    obtain ⟨l, hl, hle⟩ := List.getElem_of_mem hj
    rw [List.getElem_zip, Prod.mk.injEq] at hke hle
    rw [List.length_zip] at hk hl
    rw [← hke.1, ← hle.1] at hij
    rw [← hke.2, ← hle.2]
    rcases lt_or_ge k l with hkl | hkl
    · exact List.pairwise_iff_getElem.mp hy k l (by omega) (by omega) hkl
    · rcases hkl.eq_or_lt with hkl | hkl
      · subst hkl; exact le_rfl
      · exact absurd hij (not_lt.mpr (List.pairwise_iff_getElem.mp hx l k (by omega) (by omega) hkl))
  · intro h
    set σ := Tuple.sort (fun i => toLex (a i, b i)) with hσ
    have hmono : Monotone ((fun i => toLex (a i, b i)) ∘ σ) := Tuple.monotone_sort _
    have ha : (List.ofFn (a ∘ σ)).Pairwise (· ≤ ·) := by
      rw [List.pairwise_ofFn]
      intro i j hij
      exact Prod.Lex.monotone_fst _ _ (hmono hij.le)
    have hb : (List.ofFn (b ∘ σ)).Pairwise (· ≤ ·) := by
      rw [List.pairwise_ofFn]
      intro i j hij
      rcases Prod.Lex.le_iff.mp (hmono hij.le) with h1 | h1
      · exact h _ _ h1
      · exact h1.2
    have hpa : (List.ofFn (a ∘ σ)).Perm (List.ofFn a) := Equiv.Perm.ofFn_comp_perm σ a
    have hpb : (List.ofFn (b ∘ σ)).Perm (List.ofFn b) := Equiv.Perm.ofFn_comp_perm σ b
    have hxe : x = List.ofFn (a ∘ σ) := (hxa.trans hpa.symm).eq_of_pairwise (fun _ _ _ _ => le_antisymm) hx ha
    have hye : y = List.ofFn (b ∘ σ) := (hyb.trans hpb.symm).eq_of_pairwise (fun _ _ _ _ => le_antisymm) hy hb
    have hz : x.zip y = List.ofFn ((fun i => (a i, b i)) ∘ σ) := by
      rw [hxe, hye]
      apply List.ext_getElem
      · simp
      · intro i h1 h2; simp
    rw [hz]
    exact Equiv.Perm.ofFn_comp_perm σ _

section statements
variable {Q Com : Type} {na nd : ℕ} {factor : ℝ} {interpolate : (Com → Matrix (Fin (na * nd)) (Fin (na * nd)) ℂ) → Q → Matrix (Fin (na * nd)) (Fin (na * nd)) ℂ}
  {mesh : List (Q × ℕ)} {E : Com → Matrix (Fin (na * nd)) (Fin (na * nd)) ℂ} {frequencies linewidths : Com → Fin (na * nd) → ℝ}

/-- C125: one row of frequencies and one of linewidths for each wave vector of the mesh, in the order of the wave vectors. At a wave vector of the mesh that is the commensurate point `p` (where phonopy gives back the
dynamical matrix) the row of the frequencies has exactly the renormalized frequencies of `p`, in ascending order, and the row of the linewidths exactly its linewidths, in ascending order. -/
theorem C125_rows (r : MeshResult Q) (hr : r = meshFrequenciesLinewidths na nd factor interpolate mesh (fun p => arrangeEv na nd (entries (E p))) frequencies linewidths)
    (hf : 0 < factor) (hE : ∀ p, (E p).conjTranspose * E p = 1) :
    r.qpoints = mesh.map Prod.fst ∧ r.multiplicity = mesh.map Prod.snd ∧ r.frequencies.length = mesh.length ∧ r.linewidths.length = mesh.length ∧
    ∀ (k : ℕ) (q : Q) (p : Com), r.qpoints[k]? = some q → (∀ D, interpolate D q = D p) → ∃ f l : List ℝ, r.frequencies[k]? = some f ∧ r.linewidths[k]? = some l ∧
      f.Pairwise (· ≤ ·) ∧ f.Perm (List.ofFn (frequencies p)) ∧ l.Pairwise (· ≤ ·) ∧ l.Perm (List.ofFn (linewidths p)) := by
  subst hr
  refine ⟨rfl, rfl, by simp [meshFrequenciesLinewidths, meshRowsOf], by simp [meshFrequenciesLinewidths, meshRowsOf], ?_⟩
  intro k q p hk hq
  simp only [meshFrequenciesLinewidths, List.getElem?_map, Option.map_eq_some_iff] at hk
  obtain ⟨m, hm, rfl⟩ := hk
  have h1 := phonopyRow_sorted na nd hf (frequencies p) (E p) (hE p)
  have h2 := phonopyRow_sorted na nd hf (linewidths p) (E p) (hE p)
  refine ⟨_, _, by simp only [meshFrequenciesLinewidths, meshRowsOf, List.getElem?_map, hm, Option.map_some, hq],
    by simp only [meshFrequenciesLinewidths, meshRowsOf, List.getElem?_map, hm, Option.map_some, hq], h1.1, h1.2, h2.1, h2.2⟩

/-- C125 (when it holds): the pairs (frequency, linewidth) shown at a commensurate wave vector of the mesh are those of its modes exactly if a mode with higher frequency never has a smaller linewidth. -/
theorem C125_pairs_partial (r : MeshResult Q) (hr : r = meshFrequenciesLinewidths na nd factor interpolate mesh (fun p => arrangeEv na nd (entries (E p))) frequencies linewidths)
    (hf : 0 < factor) (hE : ∀ p, (E p).conjTranspose * E p = 1) (k : ℕ) (q : Q) (p : Com) (hk : r.qpoints[k]? = some q) (hq : ∀ D, interpolate D q = D p) (f l : List ℝ)
    (hfk : r.frequencies[k]? = some f) (hlk : r.linewidths[k]? = some l) :
    (f.zip l).Perm (List.ofFn fun s => (frequencies p s, linewidths p s)) ↔ ∀ s s', frequencies p s < frequencies p s' → linewidths p s ≤ linewidths p s' := by
  obtain ⟨f', l', h1, h2, h3, h4, h5, h6⟩ := (C125_rows r hr hf hE).2.2.2.2 k q p hk hq
  rw [hfk, Option.some.injEq] at h1
  rw [hlk, Option.some.injEq] at h2
  subst h1; subst h2
  exact zip_sorted_pairs _ _ _ _ h3 h5 h4 h6

/-- C125: the plot shows, for each wave vector of the mesh and each branch, the point (frequency, linewidth) of the same position in the two rows. -/
theorem C125_plot (branches : ℕ) (fs ls : List (List ℝ)) (hlen : fs.length = ls.length) (j : ℕ) (hj : j < branches) (k : ℕ) (f l : List ℝ) (hf : fs[k]? = some f) (hl : ls[k]? = some l)
    (hfj : j < f.length) (hlj : j < l.length) :
    (scatterCalls branches fs ls).length = branches ∧ ∃ call, (scatterCalls branches fs ls)[j]? = some call ∧ call.length = fs.length ∧ call[k]? = some (f[j], l[j]) := by
  refine ⟨by simp [scatterCalls], _, by simp only [scatterCalls, List.getElem?_map, List.getElem?_range hj, Option.map_some]; rfl, by simp [hlen], ?_⟩
  rw [List.getElem?_zip_eq_some]
  simp only [List.getElem?_map, hf, hl, Option.map_some, Option.some.injEq, List.getD_eq_getElem?_getD, List.getElem?_eq_getElem hfj, List.getElem?_eq_getElem hlj, Option.getD_some]
  exact ⟨trivial, trivial⟩

end statements

/-- Every mode is shown with its own linewidth: false. One atom with the frequencies 1, 2, 3 and the linewidths 0.3, 0.2, 0.1, one wave vector: the mode of frequency 1 is shown with linewidth 0.1. -/
theorem C125_pairs_violated : ∃ (factor : ℝ) (E : Unit → Matrix (Fin (1 * 3)) (Fin (1 * 3)) ℂ) (frequencies linewidths : Unit → Fin (1 * 3) → ℝ) (r : MeshResult Unit),
    0 < factor ∧ (∀ p, (E p).conjTranspose * E p = 1) ∧
    r = meshFrequenciesLinewidths 1 3 factor (fun D q => D q) [((), 1)] (fun p => arrangeEv 1 3 (entries (E p))) frequencies linewidths ∧
    frequencies () = ![1, 2, 3] ∧ linewidths () = ![0.3, 0.2, 0.1] ∧ r.frequencies = [[1, 2, 3]] ∧ r.linewidths = [[0.1, 0.2, 0.3]] := by
  refine ⟨1, fun _ => 1, fun _ => ![1, 2, 3], fun _ => ![0.3, 0.2, 0.1], _, one_pos, fun _ => by simp, rfl, rfl, rfl, ?_, ?_⟩
  · have h := phonopyRow_sorted 1 3 one_pos ![1, 2, 3] 1 (by simp)
    have h2 : ([1, 2, 3] : List ℝ).Pairwise (· ≤ ·) := by simp; norm_num
    have h3 : (List.ofFn (![1, 2, 3] : Fin (1 * 3) → ℝ)) = [1, 2, 3] := by simp [List.ofFn_succ]
    rw [h3] at h
    have := h.2.eq_of_pairwise (fun _ _ _ _ => le_antisymm) h.1 h2
    simp only [meshFrequenciesLinewidths, meshRowsOf, List.map_cons, List.map_nil]
    rw [this]
  · have h := phonopyRow_sorted 1 3 one_pos ![0.3, 0.2, 0.1] 1 (by simp)
    have h2 : ([0.1, 0.2, 0.3] : List ℝ).Pairwise (· ≤ ·) := by simp; norm_num
    have h3 : (List.ofFn (![0.3, 0.2, 0.1] : Fin (1 * 3) → ℝ)) = [0.3, 0.2, 0.1] := by simp [List.ofFn_succ]
    rw [h3] at h
    have hp : ([0.3, 0.2, 0.1] : List ℝ).Perm [0.1, 0.2, 0.3] := List.reverse_perm [0.1, 0.2, 0.3]
    have := (h.2.trans hp).eq_of_pairwise (fun _ _ _ _ => le_antisymm) h.1 h2
    simp only [meshFrequenciesLinewidths, meshRowsOf, List.map_cons, List.map_nil]
    rw [this]

end Verif
