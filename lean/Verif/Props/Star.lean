import Verif.Props.Quasi
import Verif.Props.PhonopyLink
import Verif.Model.DoubleTests
import Verif.Props.Double

/-! # C129: averages over equivalent wave vectors -/

set_option autoImplicit false

namespace Verif

section star

variable {K : Type*} [Field K] [LinearOrder K] [IsStrictOrderedRing K]

/-- The operations of a crystal: a group of matrices. -/
structure IsPointGroup (ops : List (Matrix (Fin 3) (Fin 3) K)) : Prop where
  one : 1 ∈ ops
  mul : ∀ a ∈ ops, ∀ b ∈ ops, a * b ∈ ops
  inv : ∀ a ∈ ops, ∃ b ∈ ops, a * b = 1

theorem qOperation_mul (P a b : Matrix (Fin 3) (Fin 3) K) (hP : P.det ≠ 0) : qOperation P a * qOperation P b = qOperation P (b * a) := by
  have hu : IsUnit P.det := isUnit_iff_ne_zero.2 hP
  unfold qOperation
  rw [Matrix.transpose_mul]
  calc P⁻¹ * a.transpose * P * (P⁻¹ * b.transpose * P) = P⁻¹ * a.transpose * (P * P⁻¹) * b.transpose * P := by simp only [Matrix.mul_assoc]
    _ = P⁻¹ * (a.transpose * b.transpose) * P := by rw [Matrix.mul_nonsing_inv _ hu, Matrix.mul_one]; simp only [Matrix.mul_assoc]

theorem qOperation_one (P : Matrix (Fin 3) (Fin 3) K) (hP : P.det ≠ 0) : qOperation P 1 = 1 := by
  unfold qOperation
  rw [Matrix.transpose_one, Matrix.mul_one, Matrix.nonsing_inv_mul _ (isUnit_iff_ne_zero.2 hP)]

/-- **C129**: for a wave vector without negative coordinates, every wave vector of the list has the same list of equivalent wave vectors, up to the order. -/
theorem C129_star (P : Matrix (Fin 3) (Fin 3) K) (hP : P.det ≠ 0) (ops : List (Matrix (Fin 3) (Fin 3) K)) (hops : IsPointGroup ops) (q : Fin 3 → K) (hq : ∀ i, 0 ≤ q i)
    (q' : Fin 3 → K) (h : q' ∈ equivalentQPoints P ops q) : (equivalentQPoints P ops q').Perm (equivalentQPoints P ops q) := by
  have himg : ∃ g ∈ ops, q' = Matrix.vecMul q (qOperation P g) ∧ ∀ i, 0 ≤ q' i := by
    rcases ((C65_points P ops q).2.2 q').1 h with rfl | ⟨g, hg, e, hpos⟩
    · exact ⟨1, hops.one, by rw [qOperation_one P hP, Matrix.vecMul_one], hq⟩
    · exact ⟨g, hg, e, hpos⟩
  obtain ⟨g, hg, e, hpos⟩ := himg
  obtain ⟨g', hg', hgg⟩ := hops.inv g hg
  have hgg' : g' * g = 1 := mul_eq_one_comm.1 hgg
  have eback : q = Matrix.vecMul q' (qOperation P g') := by
    rw [e, Matrix.vecMul_vecMul, qOperation_mul P g g' hP, hgg', qOperation_one P hP, Matrix.vecMul_one]
  rw [List.perm_ext_iff_of_nodup (C65_points P ops q').1 (C65_points P ops q).1]
  intro t
  rw [(C65_points P ops q').2.2, (C65_points P ops q).2.2]
  constructor
  · rintro (rfl | ⟨a, ha, et, ht⟩)
    · exact Or.inr ⟨g, hg, e, hpos⟩
    · refine Or.inr ⟨a * g, hops.mul a ha g hg, ?_, ht⟩
      rw [et, e, Matrix.vecMul_vecMul]
      exact congrArg _ (qOperation_mul P g a hP)
  · rintro (rfl | ⟨a, ha, et, ht⟩)
    · exact Or.inr ⟨g', hg', eback, hq⟩
    · refine Or.inr ⟨a * g', hops.mul a ha g' hg', ?_, ht⟩
      rw [et, eback, Matrix.vecMul_vecMul]
      exact congrArg _ (qOperation_mul P g' a hP)

/-- The exchange of two axes and the identity are a group. -/
theorem exchange_group : IsPointGroup ([1, !![0, 1, 0; 1, 0, 0; 0, 0, 1]] : List (Matrix (Fin 3) (Fin 3) ℚ)) := by
  have h2 : (!![0, 1, 0; 1, 0, 0; 0, 0, 1] : Matrix (Fin 3) (Fin 3) ℚ) * !![0, 1, 0; 1, 0, 0; 0, 0, 1] = 1 := by
    ext i j; fin_cases i <;> fin_cases j <;> simp [Matrix.mul_apply, Fin.sum_univ_three]
  refine ⟨by simp, ?_, ?_⟩
  · intro a ha b hb
    simp only [List.mem_cons, List.not_mem_nil, or_false] at ha hb ⊢
    rcases ha with rfl | rfl <;> rcases hb with rfl | rfl <;> simp [h2]
  · intro a ha
    simp only [List.mem_cons, List.not_mem_nil, or_false] at ha
    rcases ha with rfl | rfl
    · exact ⟨1, by simp, one_mul 1⟩
    · exact ⟨_, by simp, h2⟩

/-- A non-trivial case: (0,1/2,0) is in the list of (1/2,0,0). -/
example : (equivalentQPoints 1 [1, !![0, 1, 0; 1, 0, 0; 0, 0, 1]] (![0, 1/2, 0] : Fin 3 → ℚ)).Perm (equivalentQPoints 1 [1, !![0, 1, 0; 1, 0, 0; 0, 0, 1]] ![1/2, 0, 0]) := by
  refine C129_star 1 (by simp) _ exchange_group _ (by intro i; fin_cases i <;> simp) _ ?_
  refine ((C65_points _ _ _).2.2 _).2 (Or.inr ⟨!![0, 1, 0; 1, 0, 0; 0, 0, 1], by simp, ?_, by intro i; fin_cases i <;> simp⟩)
  rw [inv_one, Matrix.one_mul, Matrix.mul_one]
  ext i; fin_cases i <;> simp [Matrix.vecMul, dotProduct, Fin.sum_univ_three]

end star

section spectra

variable {K V : Type*} [Field K] [LinearOrder K] [IsStrictOrderedRing K] [FloorRing K]

/-- **C129**: after any history, the phonon spectra and the wave vector spectrum with symmetry are the averages over the equivalent wave vectors of what new calculations without symmetry give for these
(`hlin`: averaging arrays and adding their columns may be exchanged). -/
theorem C129_average {Q : Type*} [DecidableEq Q] (env : QEnv K V Q) (hd : 0 < env.dosLimit) (hlin : ∀ l : List V, env.sumCols (env.avg l) = env.avg (l.map env.sumCols))
    (s₀ : QSettings K Q) (h₀ : s₀.freq.Valid)
    (l : List (QOp K Q)) (hl : ∀ p ∈ l, p.Ok) (o : Quasi K V Q) (ho : l.foldlM (Quasi.op env) (Quasi.fresh s₀) = some o) (hs : o.s.sym = true) :
    (o.getPhonon env).2 = env.avg ((env.equiv o.s.q).map fun q => ((Quasi.fresh { o.s with q := q, sym := false } : Quasi K V Q).getPhonon env).2) ∧
    (o.getWave env).2 = env.avg ((env.equiv o.s.q).map fun q => ((Quasi.fresh { o.s with q := q, sym := false } : Quasi K V Q).getWave env).2) := by
  have h := QInv.run hd l (QInv.fresh env s₀ h₀) hl ho
  have hf := fun q => C33_values (V := V) env { o.s with q := q, sym := false } h.valid
  refine ⟨?_, ?_⟩
  · rw [h.getPhonon.val]
    unfold specPhonon
    rw [if_pos hs]
    congr 1
  · rw [h.getWave.val]
    unfold specWave
    rw [if_pos hs, hlin, List.map_map]
    congr 1

/-- **C129**: after any history, the spectra with symmetry are the same for each of the equivalent wave vectors of a wave vector without negative coordinates. -/
theorem C129_choice (env : QEnv K V (Fin 3 → K)) (hd : 0 < env.dosLimit) (P : Matrix (Fin 3) (Fin 3) K) (hP : P.det ≠ 0) (ops : List (Matrix (Fin 3) (Fin 3) K))
    (hops : IsPointGroup ops) (henv : env.equiv = equivalentQPoints P ops) (havg : ∀ l l' : List V, l.Perm l' → env.avg l = env.avg l')
    (s₀ : QSettings K (Fin 3 → K)) (h₀ : s₀.freq.Valid) (l : List (QOp K (Fin 3 → K))) (hl : ∀ p ∈ l, p.Ok) (o : Quasi K V (Fin 3 → K))
    (ho : l.foldlM (Quasi.op env) (Quasi.fresh s₀) = some o) (hs : o.s.sym = true) (hq : ∀ i, 0 ≤ o.s.q i) (q' : Fin 3 → K) (h : q' ∈ env.equiv o.s.q) :
    ((o.setQ q').getPhonon env).2 = (o.getPhonon env).2 ∧ ((o.setQ q').getWave env).2 = (o.getWave env).2 := by
  have hi := QInv.run hd l (QInv.fresh env s₀ h₀) hl ho
  have hi' := hi.setQ q'
  rw [henv] at h
  have hperm := C129_star P hP ops hops o.s.q hq q' h
  have hsym : (o.setQ q').s.sym = true := by rw [Quasi.setQ_s]; exact hs
  rw [hi'.getPhonon.val, hi.getPhonon.val, hi'.getWave.val, hi.getWave.val]
  unfold specPhonon specWave
  rw [if_pos hsym, if_pos hs, if_pos hsym, if_pos hs, henv]
  simp only [Quasi.setQ_s]
  exact ⟨havg _ _ (hperm.map _), congrArg _ (havg _ _ (hperm.map _))⟩

/-- Numbers instead of arrays, the exchange of two axes as symmetry, averages of numbers. -/
noncomputable def starEnv : QEnv ℚ ℚ (Fin 3 → ℚ) where
  eig q := q 0
  frq q := [q 0, q 1, q 2]
  proj q p := q 0 + 2 * q 1 + p
  phon a b := a * b
  spec a m r x := a + m + r.length + x
  flat v := 3 * v
  avg l := l.sum / l.length
  sumCols v := v
  vel p c := p + c
  partials f := f 6
  equiv := equivalentQPoints 1 [1, !![0, 1, 0; 1, 0, 0; 0, 0, 1]]
  fit v r h _ f _ := (h.map (· + f), [v])
  gamma q := q 0 = 0
  dosLimit := 2
  points := []
  seekPath := []
  bands l _ := l.length

/-- The hypotheses of `C129_average` and `C129_choice` are met: a history with changes of the wave vector and the algorithm and calculations between, ending at (1/2,0,0) with symmetry. -/
example : ∃ (s₀ : QSettings ℚ (Fin 3 → ℚ)) (l : List (QOp ℚ (Fin 3 → ℚ))) (o : Quasi ℚ ℚ (Fin 3 → ℚ)), s₀.freq.Valid ∧ (∀ p ∈ l, p.Ok) ∧ l.foldlM (Quasi.op starEnv) (Quasi.fresh s₀) = some o ∧
    o.s.sym = true ∧ o.s.q = ![1/2, 0, 0] ∧ ((o.setQ ![0, 1/2, 0]).getPhonon starEnv).2 = (o.getPhonon starEnv).2 := by
  let s₀ : QSettings ℚ (Fin 3 → ℚ) := { q := ![1/4, 0, 0], alg := 0, memCoef := 10, freq := ⟨1 / 2, [0, 1 / 2, 1]⟩, fitFn := 0, projAtom := -1, sym := true, nac := false, bandRanges := none }
  have hv : s₀.freq.Valid := ⟨by decide +kernel, by simp [s₀], by decide +kernel⟩
  let l : List (QOp ℚ (Fin 3 → ℚ)) := [.setMem 20, .setQ ![1/2, 0, 0]]
  have hl : ∀ p ∈ l, p.Ok := by intro p hp; simp only [l, List.mem_cons, List.not_mem_nil, or_false] at hp; rcases hp with rfl | rfl <;> trivial
  let o : Quasi ℚ ℚ (Fin 3 → ℚ) := ((Quasi.fresh s₀).setMem 20).setQ ![1/2, 0, 0]
  have ho : l.foldlM (Quasi.op starEnv) (Quasi.fresh s₀) = some o := rfl
  have hos : o.s = { s₀ with memCoef := 20, q := ![1/2, 0, 0] } := by simp only [o, Quasi.setQ_s]; rfl
  refine ⟨s₀, l, o, hv, hl, ho, by rw [hos], by rw [hos], ?_⟩
  refine (C129_choice starEnv (by norm_num [starEnv]) 1 (by simp) _ exchange_group rfl ?_ s₀ hv l hl o ho (by rw [hos]) (by rw [hos]; intro i; fin_cases i <;> simp) _ ?_).1
  · intro a b h
    change a.sum / a.length = b.sum / b.length
    rw [h.sum_eq, h.length_eq]
  · rw [hos]
    refine ((C65_points _ _ _).2.2 _).2 (Or.inr ⟨!![0, 1, 0; 1, 0, 0; 0, 0, 1], by simp, ?_, by intro i; fin_cases i <;> simp⟩)
    rw [inv_one, Matrix.one_mul, Matrix.mul_one]
    ext i; fin_cases i <;> simp [Matrix.vecMul, dotProduct, Fin.sum_univ_three]

/-- Averaging and adding columns in that environment may be exchanged. -/
example (l : List ℚ) : starEnv.sumCols (starEnv.avg l) = starEnv.avg (l.map starEnv.sumCols) := by
  change starEnv.avg l = starEnv.avg (l.map fun v => v)
  rw [List.map_id']

end spectra

section violated

/-- Inversion. -/
theorem inversion_group : IsPointGroup ([1, -1] : List (Matrix (Fin 3) (Fin 3) ℚ)) := by
  refine ⟨by simp, ?_, ?_⟩
  · intro a ha b hb
    simp only [List.mem_cons, List.not_mem_nil, or_false] at ha hb ⊢
    rcases ha with rfl | rfl <;> rcases hb with rfl | rfl <;> simp
  · intro a ha
    simp only [List.mem_cons, List.not_mem_nil, or_false] at ha
    rcases ha with rfl | rfl
    · exact ⟨1, by simp, one_mul 1⟩
    · exact ⟨-1, by simp, by simp⟩

theorem equivalent_inversion (q t : Fin 3 → ℚ) : t ∈ equivalentQPoints 1 [1, -1] q ↔ t = q ∨ (t = q ∨ t = -q) ∧ ∀ i, 0 ≤ t i := by
  rw [(C65_points 1 [1, -1] q).2.2]
  simp only [List.mem_cons, List.not_mem_nil, or_false, inv_one, Matrix.one_mul, Matrix.mul_one]
  constructor
  · rintro (h | ⟨op, rfl | rfl, h, hp⟩)
    · exact Or.inl h
    · rw [Matrix.transpose_one, Matrix.vecMul_one] at h; exact Or.inl h
    · rw [Matrix.transpose_neg, Matrix.transpose_one, Matrix.vecMul_neg, Matrix.vecMul_one] at h; exact Or.inr ⟨Or.inr h, hp⟩
  · rintro (h | ⟨h | h, hp⟩)
    · exact Or.inl h
    · exact Or.inl h
    · exact Or.inr ⟨-1, Or.inr rfl, by rw [Matrix.transpose_neg, Matrix.transpose_one, Matrix.vecMul_neg, Matrix.vecMul_one]; exact h, hp⟩

/-- **C129, violated**: which equivalent wave vectors are used depends on the choice, if a coordinate is negative: for a crystal with inversion the list of (-1/4,0,0) has (1/4,0,0) in it, but not the other way
round. -/
theorem C129_negative_violated : ¬ ∀ (ops : List (Matrix (Fin 3) (Fin 3) ℚ)), IsPointGroup ops → ∀ q q' : Fin 3 → ℚ, q' ∈ equivalentQPoints 1 ops q → q ∈ equivalentQPoints 1 ops q' := by
  intro h
  have h1 := h [1, -1] inversion_group ![-1/4, 0, 0] ![1/4, 0, 0] ((equivalent_inversion _ _).2 (Or.inr ⟨Or.inr (by ext i; fin_cases i <;> norm_num), by intro i; fin_cases i <;> norm_num⟩))
  rw [equivalent_inversion] at h1
  rcases h1 with h1 | ⟨_, h1⟩
  · have := congrFun h1 0
    norm_num at this
  · have := h1 0
    norm_num at this

/-- **C129, violated**: equivalent wave vectors with a negative coordinate are left out, also those that are not the opposite of one in the list: with a mirror at the second axis, (1/4,-1/4,0) is missing in the list
of (1/4,1/4,0), and so is its opposite. -/
theorem C129_missing_violated : ∃ ops : List (Matrix (Fin 3) (Fin 3) ℚ), IsPointGroup ops ∧ (∃ op ∈ ops, Matrix.vecMul (![1/4, 1/4, 0] : Fin 3 → ℚ) (qOperation 1 op) = ![1/4, -1/4, 0]) ∧
    (![1/4, -1/4, 0] : Fin 3 → ℚ) ∉ equivalentQPoints 1 ops ![1/4, 1/4, 0] ∧ (![-1/4, 1/4, 0] : Fin 3 → ℚ) ∉ equivalentQPoints 1 ops ![1/4, 1/4, 0] := by
  have h2 : (!![1, 0, 0; 0, -1, 0; 0, 0, 1] : Matrix (Fin 3) (Fin 3) ℚ) * !![1, 0, 0; 0, -1, 0; 0, 0, 1] = 1 := by
    ext i j; fin_cases i <;> fin_cases j <;> simp [Matrix.mul_apply, Fin.sum_univ_three]
  refine ⟨[1, !![1, 0, 0; 0, -1, 0; 0, 0, 1]], ⟨by simp, ?_, ?_⟩, ⟨!![1, 0, 0; 0, -1, 0; 0, 0, 1], by simp, ?_⟩, ?_, ?_⟩
  · intro a ha b hb
    simp only [List.mem_cons, List.not_mem_nil, or_false] at ha hb ⊢
    rcases ha with rfl | rfl <;> rcases hb with rfl | rfl <;> simp [h2]
  · intro a ha
    simp only [List.mem_cons, List.not_mem_nil, or_false] at ha
    rcases ha with rfl | rfl
    · exact ⟨1, by simp, one_mul 1⟩
    · exact ⟨_, by simp, h2⟩
  · unfold qOperation
    rw [inv_one, Matrix.one_mul, Matrix.mul_one]
    ext i; fin_cases i <;> simp [Matrix.vecMul, dotProduct, Fin.sum_univ_three]
    norm_num
  · rw [(C65_points _ _ _).2.2]
    rintro (h | ⟨_, _, _, h⟩)
    · have := congrFun h 1
      norm_num at this
    · have := h 1
      norm_num at this
  · rw [(C65_points _ _ _).2.2]
    rintro (h | ⟨_, _, _, h⟩)
    · have := congrFun h 0
      norm_num at this
    · have := h 0
      norm_num at this

/-- **C129, violated in double precision**: a body centred crystal with a two-fold axis (and only that): the exact list of (-1/2,2/5,1/10) has (0,1/10,2/5) in it, but the calculated first coordinate is -2.8e-17, so that
the wave vector is left out. -/
theorem C129_double_violated : ∃ (P op : Matrix (Fin 3) (Fin 3) ℚ), P.det ≠ 0 ∧ IsPointGroup [1, op] ∧
    (![0, 1/10, 2/5] : Fin 3 → ℚ) ∈ equivalentQPoints P [1, op] ![-1/2, 2/5, 1/10] ∧
    equivalentQPointsFl [fun i j => qOperation P 1 i j, fun i j => qOperation P op i j] ![fl (-1/2), fl (2/5), fl (1/10)] = [![fl (-1/2), fl (2/5), fl (1/10)]] := by
  have hinv : (!![-1/2, 1/2, 1/2; 1/2, -1/2, 1/2; 1/2, 1/2, -1/2] : Matrix (Fin 3) (Fin 3) ℚ)⁻¹ = !![0, 1, 1; 1, 0, 1; 1, 1, 0] := by
    apply Matrix.inv_eq_left_inv
    decide +kernel
  have hdet : (!![-1/2, 1/2, 1/2; 1/2, -1/2, 1/2; 1/2, 1/2, -1/2] : Matrix (Fin 3) (Fin 3) ℚ).det ≠ 0 := by
    rw [Matrix.det_fin_three]; decide +kernel
  have hop : qOperation (!![-1/2, 1/2, 1/2; 1/2, -1/2, 1/2; 1/2, 1/2, -1/2] : Matrix (Fin 3) (Fin 3) ℚ) !![1, 0, 0; 0, -1, 0; 0, 0, -1] = !![-1, 0, 0; -1, 0, 1; -1, 1, 0] := by
    unfold qOperation
    rw [hinv]
    decide +kernel
  have h2 : (!![1, 0, 0; 0, -1, 0; 0, 0, -1] : Matrix (Fin 3) (Fin 3) ℚ) * !![1, 0, 0; 0, -1, 0; 0, 0, -1] = 1 := by
    ext i j; fin_cases i <;> fin_cases j <;> simp [Matrix.mul_apply, Fin.sum_univ_three]
  refine ⟨_, !![1, 0, 0; 0, -1, 0; 0, 0, -1], hdet, ⟨by simp, ?_, ?_⟩, ?_, ?_⟩
  · intro a ha b hb
    simp only [List.mem_cons, List.not_mem_nil, or_false] at ha hb ⊢
    rcases ha with rfl | rfl <;> rcases hb with rfl | rfl <;> simp [h2]
  · intro a ha
    simp only [List.mem_cons, List.not_mem_nil, or_false] at ha
    rcases ha with rfl | rfl
    · exact ⟨1, by simp, one_mul 1⟩
    · exact ⟨_, by simp, h2⟩
  · refine ((C65_points _ _ _).2.2 _).2 (Or.inr ⟨!![1, 0, 0; 0, -1, 0; 0, 0, -1], by simp, ?_, by intro i; fin_cases i <;> norm_num⟩)
    have := hop
    unfold qOperation at this
    rw [this]
    decide +kernel
  · rw [hop, qOperation_one _ hdet]
    decide +kernel

end violated

/-- An operation that permutes the coordinates of a wave vector and changes signs: one entry 1 or -1 in each column, and zeros. -/
def IsSignedPermutation (m : Matrix (Fin 3) (Fin 3) ℚ) : Prop := ∀ i, ∃ j, (m j i = 1 ∨ m j i = -1) ∧ ∀ k, k ≠ j → m k i = 0

theorem isDouble_neg {x : ℚ} (h : IsDouble x) : IsDouble (-x) := by
  obtain ⟨m, e, hm, rfl⟩ := h
  exact ⟨-m, e, by rwa [abs_neg], by push_cast; ring⟩

/-- **C129** (double precision): if the operations permute the coordinates and change signs (as in the simple lattices), the calculated list is the exact list, for every wave vector. -/
theorem C129_double (P : Matrix (Fin 3) (Fin 3) ℚ) (ops : List (Matrix (Fin 3) (Fin 3) ℚ)) (hops : ∀ op ∈ ops, IsSignedPermutation (qOperation P op)) (q : Fin 3 → ℚ) (hq : ∀ i, IsDouble (q i)) :
    equivalentQPointsFl (ops.map fun op => fun i j => qOperation P op i j) q = equivalentQPoints P ops q := by
  have key : ∀ op ∈ ops, (fun i => fl (fl (fl (q 0 * qOperation P op 0 i) + fl (q 1 * qOperation P op 1 i)) + fl (q 2 * qOperation P op 2 i))) = Matrix.vecMul q (qOperation P op) := by
    intro op hop
    funext i
    obtain ⟨j, hj, h0⟩ := hops op hop i
    have hd : ∀ j, fl (q j) = q j := fun j => fl_of_double (hq j)
    have hn : ∀ j, fl (-q j) = -q j := fun j => fl_of_double (isDouble_neg (hq j))
    have h00 := h0 0
    have h01 := h0 1
    have h02 := h0 2
    rw [Matrix.vecMul, dotProduct, Fin.sum_univ_three]
    fin_cases j <;> simp at hj h00 h01 h02 <;> rcases hj with hj | hj <;> simp [*, fl_zero]
  unfold equivalentQPointsFl equivalentQPoints
  rw [List.map_map]
  have : (ops.map ((fun m : Fin 3 → Fin 3 → ℚ => fun i => fl (fl (fl (q 0 * m 0 i) + fl (q 1 * m 1 i)) + fl (q 2 * m 2 i))) ∘ fun op => fun i j => qOperation P op i j)) =
      ops.map fun op => Matrix.vecMul q (qOperation P op) := List.map_congr_left fun op hop => key op hop
  rw [this]

/-- The hypotheses are met: the exchange of two axes and a wave vector with coordinates that are not exact in binary. -/
example : equivalentQPointsFl [fun i j => qOperation 1 1 i j, fun i j => qOperation 1 !![0, 1, 0; 1, 0, 0; 0, 0, 1] i j] ![fl (1/10), 0, fl (3/10)] =
    equivalentQPoints 1 [1, !![0, 1, 0; 1, 0, 0; 0, 0, 1]] ![fl (1/10), 0, fl (3/10)] := by
  refine C129_double 1 [1, !![0, 1, 0; 1, 0, 0; 0, 0, 1]] ?_ _ ?_
  · intro op hop
    simp only [List.mem_cons, List.not_mem_nil, or_false] at hop
    unfold qOperation
    rcases hop with rfl | rfl
    · intro i
      refine ⟨i, by simp, fun k hk => by simp [hk]⟩
    · intro i
      fin_cases i
      · exact ⟨1, by simp, fun k hk => by fin_cases k <;> simp_all⟩
      · exact ⟨0, by simp, fun k hk => by fin_cases k <;> simp_all⟩
      · exact ⟨2, by simp, fun k hk => by fin_cases k <;> simp_all⟩
  · intro i
    fin_cases i
    · exact fl_double _
    · exact ⟨0, 0, by norm_num, by simp⟩
    · exact fl_double _

end Verif
