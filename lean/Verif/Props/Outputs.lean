import Verif.Model.Outputs
import Verif.Props.PhonopyLink
import Verif.Props.Dynamics

/-! # C93 (bands), C94 (data files), C95 (reading the quasiparticle data again) -/

set_option autoImplicit false
set_option linter.unusedSectionVars false

namespace Verif

theorem mapM_range_some {β : Type} (f : ℕ → Option β) (g : ℕ → β) (m : ℕ) (h : ∀ i < m, f i = some (g i)) :
    (List.range m).mapM f = some ((List.range m).map g) := by
  suffices ∀ l : List ℕ, (∀ i ∈ l, f i = some (g i)) → l.mapM f = some (l.map g) from this _ (fun i hi => h i (List.mem_range.1 hi))
  intro l
  induction l with
  | nil => intro _; rfl
  | cons a l ih =>
    intro h
    rw [List.mapM_cons, h a List.mem_cons_self, ih fun i hi => h i (List.mem_cons_of_mem _ hi)]
    rfl

/-! ## Connection of the segments -/

section connect
variable {n : ℕ}

/-- Specification: the first wave vector of `t` is the last one of `s`: same eigenvectors and frequencies, but the branches may be
numbered differently (`σ`) and the eigenvectors have other phases. -/
def Joined (s t : Segment n) : Prop :=
  ∃ (E F : Matrix (Fin n) (Fin n) ℂ) (f g : Fin n → ℝ), s.ev.getLast? = some E ∧ t.ev.head? = some F ∧
    s.freq.getLast? = some f ∧ t.freq.head? = some g ∧ Orthonormal' E ∧
    ∃ (σ : Equiv.Perm (Fin n)) (phase : Fin n → ℂ), (∀ j, ‖phase j‖ = 1) ∧ (∀ i j, F i (σ j) = phase j * E i j) ∧ ∀ j, g (σ j) = f j

/-- Specification: every branch of `t` starts with the frequency at which the same branch of `s` ends. -/
def Continues (s t : Segment n) : Prop := ∃ f, s.freq.getLast? = some f ∧ t.freq.head? = some f

theorem joined_reorder (s t : Segment n) (h : Joined s t) (τ : Equiv.Perm (Fin n)) : Joined (s.reorder τ) t := by
  obtain ⟨E, F, f, g, h1, h2, h3, h4, ho, σ, ph, hp, hF, hg⟩ := h
  refine ⟨E.submatrix id τ, F, fun j => f (τ j), g, ?_, h2, ?_, h4, ?_, τ.trans σ, fun j => ph (τ j), fun j => hp _, ?_, ?_⟩
  · simp [Segment.reorder, List.getLast?_map, h1]
  · simp [Segment.reorder, List.getLast?_map, h3]; rfl
  · unfold Orthonormal' at ho ⊢
    ext i j
    have := congrFun (congrFun ho (τ i)) (τ j)
    simp only [Matrix.mul_apply, Matrix.conjTranspose_apply, Matrix.one_apply, EmbeddingLike.apply_eq_iff_eq] at this
    simpa [Matrix.mul_apply, Matrix.conjTranspose_apply, Matrix.one_apply] using this
  · intro i j; simpa using hF i (τ j)
  · intro j; simpa using hg (τ j)

theorem reconnectOrder_joined (s t : Segment n) (h : Joined s t) :
    ∃ σ : Equiv.Perm (Fin n), reconnectOrder s t = σ ∧ Continues s (t.reorder σ) := by
  obtain ⟨E, F, f, g, h1, h2, h3, h4, ho, σ, ph, hp, hF, hg⟩ := h
  refine ⟨σ, ?_, f, h3, ?_⟩
  · funext i
    have hov : ∀ j, overlap E F i j = if j = σ i then 1 else 0 := by
      intro j
      obtain ⟨k, rfl⟩ := σ.surjective j
      have hm : (E.conjTranspose * F) i (σ k) = ph k * (1 : Matrix (Fin n) (Fin n) ℂ) i k := by
        rw [← ho, Matrix.mul_apply, Matrix.mul_apply, Finset.mul_sum]
        refine Finset.sum_congr rfl fun x _ => ?_
        rw [hF]; ring
      unfold overlap
      rw [hm, norm_mul, hp, one_mul, Matrix.one_apply]
      by_cases hik : i = k
      · subst hik; simp
      · have : k ≠ i := fun e => hik e.symm
        simp [hik, this]
    unfold reconnectOrder
    rw [h1, h2]
    simp only
    rw [argmax_strict (fun j => overlap E F i j) (σ i) (fun k hk => by simp [hov, hk])]
    rfl
  · simp only [Segment.reorder, List.head?_map, h4, Option.map_some, Option.some.injEq]
    funext j
    exact hg j

theorem reconnectFrom_chain (l : List (Segment n)) : ∀ (s s' : Segment n) (τ : Equiv.Perm (Fin n)), s' = s.reorder τ →
    List.IsChain Joined (s :: l) →
    List.IsChain Continues (s' :: reconnectFrom s' l) ∧
    List.Forall₂ (fun a b => ∃ σ : Equiv.Perm (Fin n), b = Segment.reorder a σ) l (reconnectFrom s' l) := by
  induction l with
  | nil => intro s s' τ _ _; exact ⟨by simp [reconnectFrom], List.Forall₂.nil⟩
  | cons t l ih =>
    intro s s' τ hs hc
    rw [List.isChain_cons_cons] at hc
    have hj : Joined s' t := hs ▸ joined_reorder s t hc.1 τ
    obtain ⟨σ, h1, h2⟩ := reconnectOrder_joined s' t hj
    obtain ⟨h3, h4⟩ := ih t (t.reorder σ) σ rfl hc.2
    simp only [reconnectFrom, h1]
    refine ⟨?_, List.Forall₂.cons ⟨σ, rfl⟩ h4⟩
    rw [List.isChain_cons_cons]
    exact ⟨h2, h3⟩

/-- C93: connecting the segments: if along a path (of any length) each segment starts where the one before ends, then after the
reconnection every branch is continuous from segment to segment, and each segment has the branches it had before, in another order. -/
theorem C93_connected (l : List (Segment n)) (h : List.IsChain Joined l) :
    List.IsChain Continues (reconnectEigenvectors l) ∧
    List.Forall₂ (fun a b => ∃ σ : Equiv.Perm (Fin n), b = Segment.reorder a σ) l (reconnectEigenvectors l) := by
  cases l with
  | nil => exact ⟨by simp [reconnectEigenvectors], List.Forall₂.nil⟩
  | cons s l =>
    have hid : ∀ a : Segment n, a = a.reorder (1 : Equiv.Perm (Fin n)) := by
      intro a
      cases a with
      | mk f e =>
        simp only [Segment.reorder, Segment.mk.injEq]
        constructor
        · conv_lhs => rw [← List.map_id f]
          exact List.map_congr_left fun x _ => rfl
        · conv_lhs => rw [← List.map_id e]
          exact List.map_congr_left fun x _ => by simp
    obtain ⟨h1, h2⟩ := reconnectFrom_chain l s s 1 (hid s) h
    exact ⟨h1, List.Forall₂.cons ⟨1, hid s⟩ h2⟩

end connect

/-- two segments, the branches of the second are exchanged -/
example : ∃ (s t : Segment 2), Joined s t ∧ ¬ Continues s t := by
  refine ⟨⟨[![1, 2]], [1]⟩, ⟨[![2, 1]], [!![0, 1; 1, 0]]⟩, ⟨1, !![0, 1; 1, 0], ![1, 2], ![2, 1], rfl, rfl, rfl, rfl, ?_, Equiv.swap 0 1, fun _ => 1, ?_, ?_, ?_⟩, ?_⟩
  · simp [Orthonormal']
  · simp
  · intro i j; fin_cases i <;> fin_cases j <;> simp
  · intro j; fin_cases j <;> simp
  · rintro ⟨f, h1, h2⟩
    simp only [List.getLast?_singleton, Option.some.injEq, List.head?_cons] at h1 h2
    have := congrFun (h1.trans h2.symm) 0
    simp at this

/-! ## The dictionary -/

section dict
variable {K Q L : Type} [AddGroup K]

/-- Specification: `d` holds the table `a`: for each branch, by its number, the values along the path. -/
def Holds (d : List (ℕ × List K)) (a : FreqTable K) : Prop :=
  d.length = a.branches ∧ (d.map Prod.fst).Nodup ∧ ∀ k < a.branches, ∃ v, (k, v) ∈ d ∧ v.length = a.points ∧ ∀ p < a.points, v[p]? = some (a.val p k)

theorem branchDict_holds (a : FreqTable K) : Holds (branchDict a) a := by
  refine ⟨by simp [branchDict], ?_, fun k hk => ?_⟩
  · simp only [branchDict, List.map_map]
    have : (Prod.fst ∘ fun k => (k, (List.range a.points).map fun p => a.val p k)) = (id : ℕ → ℕ) := by funext k; rfl
    rw [this, List.map_id]
    exact List.nodup_range
  · refine ⟨(List.range a.points).map fun p => a.val p k, ?_, by simp, fun p hp => by simp [hp]⟩
    simp only [branchDict, List.mem_map, List.mem_range]
    exact ⟨k, hk, rfl⟩

/-- C93: the data of the bands. For every path for which phonopy returned its tables, entry `i` has the bounds and label of segment `i`,
the harmonic and renormalized frequencies of that segment by branch, and shifts that are renormalized − harmonic and linewidths that
are upper − lower for the same branch and wave vector. -/
theorem C93_dictionary (ranges : List (Q × Q)) (labels : Option (List (L × L))) (distances : List (List K))
    (harm ren sup inf : List (FreqTable K)) (withWidth : Bool)
    (hr : ranges.length = distances.length) (hh : harm.length = distances.length) (ha : ren.length = distances.length)
    (hs : sup.length = distances.length) (hi : inf.length = distances.length) (hl : ∀ l, labels = some l → l.length = distances.length) :
    ∃ data, bandsFullData ranges labels distances harm ren (if withWidth then some (sup, inf) else none) = some data ∧
      data.length = distances.length ∧
      ∀ i (hi' : i < distances.length), ∃ band r h a s m, data[i]? = some band ∧ ranges[i]? = some r ∧ harm[i]? = some h ∧ ren[i]? = some a ∧
        sup[i]? = some s ∧ inf[i]? = some m ∧
        band.distances = distances[i] ∧ band.inf = r.1 ∧ band.sup = r.2 ∧ band.labels = labels.bind (fun l => l[i]?) ∧
        Holds band.harmonic h ∧ Holds band.renormalized a ∧ Holds band.shifts ⟨a.points, a.branches, fun p k => a.val p k - h.val p k⟩ ∧
        (withWidth = false → band.minus = none ∧ band.plus = none ∧ band.linewidth = none) ∧
        (withWidth = true → ∃ x y z, band.minus = some x ∧ band.plus = some y ∧ band.linewidth = some z ∧ Holds x m ∧ Holds y s ∧
          Holds z ⟨s.points, s.branches, fun p k => s.val p k - m.val p k⟩) := by
  have hdef : ∀ i (h : i < distances.length), ∃ band, (do
      let d ← distances[i]?
      let r ← ranges[i]?
      let h ← harm[i]?
      let a ← ren[i]?
      let band : BandData K Q L :=
        { distances := d, inf := r.1, sup := r.2, harmonic := branchDict h, renormalized := branchDict a, shifts := branchDict (a.sub h) }
      let band ← match (if withWidth then some (sup, inf) else none) with
        | none => some band
        | some (s, m) => do
          let s ← s[i]?
          let m ← m[i]?
          some { band with minus := some (branchDict m), plus := some (branchDict s), linewidth := some (branchDict (s.sub m)) }
      match labels with
      | none => some band
      | some l => do
        let l ← l[i]?
        some { band with labels := some l }) = some band ∧
      ∃ r h a s m, ranges[i]? = some r ∧ harm[i]? = some h ∧ ren[i]? = some a ∧
        sup[i]? = some s ∧ inf[i]? = some m ∧
        band.distances = distances[i] ∧ band.inf = r.1 ∧ band.sup = r.2 ∧ band.labels = labels.bind (fun l => l[i]?) ∧
        Holds band.harmonic h ∧ Holds band.renormalized a ∧ Holds band.shifts ⟨a.points, a.branches, fun p k => a.val p k - h.val p k⟩ ∧
        (withWidth = false → band.minus = none ∧ band.plus = none ∧ band.linewidth = none) ∧
        (withWidth = true → ∃ x y z, band.minus = some x ∧ band.plus = some y ∧ band.linewidth = some z ∧ Holds x m ∧ Holds y s ∧
          Holds z ⟨s.points, s.branches, fun p k => s.val p k - m.val p k⟩) := by
    intro i h
    have h1 : i < ranges.length := hr ▸ h
    have h2 : i < harm.length := hh ▸ h
    have h3 : i < ren.length := ha ▸ h
    have h4 : i < sup.length := hs ▸ h
    have h5 : i < inf.length := hi ▸ h
    cases hlab : labels with
    | none =>
      cases withWidth with
      | false =>
        refine ⟨_, by simp [h, h1, h2, h3]; rfl, _, _, _, _, _, List.getElem?_eq_getElem h1, List.getElem?_eq_getElem h2, List.getElem?_eq_getElem h3, List.getElem?_eq_getElem h4, List.getElem?_eq_getElem h5, rfl, rfl, rfl, rfl, branchDict_holds _, branchDict_holds _, branchDict_holds (FreqTable.sub _ _), ?_, ?_⟩
        · intro _; exact ⟨rfl, rfl, rfl⟩
        · intro h; cases h
      | true =>
        refine ⟨_, by simp [h, h1, h2, h3, h4, h5]; rfl, _, _, _, _, _, List.getElem?_eq_getElem h1, List.getElem?_eq_getElem h2, List.getElem?_eq_getElem h3, List.getElem?_eq_getElem h4, List.getElem?_eq_getElem h5, rfl, rfl, rfl, rfl, branchDict_holds _, branchDict_holds _, branchDict_holds (FreqTable.sub _ _), ?_, ?_⟩
        · intro h; cases h
        · intro _
          exact ⟨_, _, _, rfl, rfl, rfl, branchDict_holds _, branchDict_holds _, branchDict_holds (FreqTable.sub _ _)⟩
    | some l =>
      have h6 : i < l.length := (hl l hlab) ▸ h
      cases withWidth with
      | false =>
        refine ⟨_, by simp [h, h1, h2, h3, h6]; rfl, _, _, _, _, _, List.getElem?_eq_getElem h1, List.getElem?_eq_getElem h2, List.getElem?_eq_getElem h3, List.getElem?_eq_getElem h4, List.getElem?_eq_getElem h5, rfl, rfl, rfl, ?_, branchDict_holds _, branchDict_holds _, branchDict_holds (FreqTable.sub _ _), ?_, ?_⟩
        · simp [h6]
        · intro _; exact ⟨rfl, rfl, rfl⟩
        · intro h; cases h
      | true =>
        refine ⟨_, by simp [h, h1, h2, h3, h4, h5, h6]; rfl, _, _, _, _, _, List.getElem?_eq_getElem h1, List.getElem?_eq_getElem h2, List.getElem?_eq_getElem h3, List.getElem?_eq_getElem h4, List.getElem?_eq_getElem h5, rfl, rfl, rfl, ?_, branchDict_holds _, branchDict_holds _, branchDict_holds (FreqTable.sub _ _), ?_, ?_⟩
        · simp [h6]
        · intro h; cases h
        · intro _
          exact ⟨_, _, _, rfl, rfl, rfl, branchDict_holds _, branchDict_holds _, branchDict_holds (FreqTable.sub _ _)⟩
  classical
  have hne : ∀ i < distances.length, ∃ b : BandData K Q L, True := fun i h => ⟨(hdef i h).choose, trivial⟩
  by_cases hd0 : distances.length = 0
  · refine ⟨[], ?_, by simp [hd0], fun i h => absurd h (by omega)⟩
    unfold bandsFullData
    rw [hd0]; rfl
  · have h0 : 0 < distances.length := Nat.pos_of_ne_zero hd0
    let g : ℕ → BandData K Q L := fun i => if h : i < distances.length then (hdef i h).choose else (hdef 0 h0).choose
    refine ⟨(List.range distances.length).map g, ?_, by simp, fun i h => ?_⟩
    · unfold bandsFullData
      refine mapM_range_some _ g _ fun i h => ?_
      simp only [g, dif_pos h]
      exact (hdef i h).choose_spec.1
    · have hg : g i = (hdef i h).choose := by simp only [g, dif_pos h]
      obtain ⟨r, h', a, s, m, hrest⟩ := (hdef i h).choose_spec.2
      exact ⟨g i, r, h', a, s, m, by simp [h], by rw [hg]; exact hrest⟩

/-- C93, "print_phonon_dispersion_bands prints the bands" fails: unless bands are still cached from a plot, the call always ends in a
ValueError, whatever the band ranges. -/
theorem C93_print_violated {V : Type} (bandsOf : List (Char × Char) → V) (hasLabels : Bool) :
    printBands bandsOf none hasLabels = none ∧ ∀ v, printBands bandsOf (some v) hasLabels = some v := by
  refine ⟨?_, fun v => rfl⟩
  have h : "ranges".toList = ['r', 'a', 'n', 'g', 'e', 's'] := by decide
  cases hasLabels <;> simp [printBands, unpackKeys]

end dict

/-! ## C94 -/

section files
variable {K Q F V : Type}

/-- Specification: the file for the commensurate points `pts`: one entry per point with the results of that point. -/
def goodFile (env : OutEnv K Q F V) (pts : List Q) (vel : Option (Q → V)) : List (QRow K Q V) :=
  pts.map fun q => ⟨q, env.frequencies q, env.linewidths q, env.shifts q, vel.map fun f => f q⟩

/-- The state after any history with a fixed `use_MD_cell_commensurate = b`. -/
def OutInv (env : OutEnv K Q F V) (b : Bool) (o : OutState K Q F V) : Prop :=
  let pts := env.points b
  let f := env.force pts (pts.map env.frequencies) b
  o.useMD = b ∧ (o.fc = none ∨ o.fc = some f) ∧ ∀ d, o.com = some d →
    d.qPoints = pts ∧ d.frequencies = pts.map env.frequencies ∧ d.linewidths = pts.map env.linewidths ∧ d.shifts = pts.map env.shifts ∧ d.fcSupercell = b ∧
      (d.velocity = none ∨ d.velocity = some (pts.map (env.velocity f)))

theorem out_getCom (env : OutEnv K Q F V) (b : Bool) (o : OutState K Q F V) (h : OutInv env b o) :
    OutInv env b (o.getCom env).1 ∧ (o.getCom env).1.com = some (o.getCom env).2 ∧
    ((o.com.bind (·.velocity)) = (o.getCom env).2.velocity) ∧ (o.getCom env).1.fc = o.fc := by
  obtain ⟨h1, h2, h3⟩ := h
  unfold OutState.getCom
  cases hc : o.com with
  | some d => exact ⟨⟨h1, h2, h3⟩, hc, rfl, rfl⟩
  | none =>
    refine ⟨⟨h1, h2, ?_⟩, rfl, rfl, rfl⟩
    intro d hd
    simp only [Option.some.injEq] at hd
    subst hd
    simp [h1]

theorem out_getFC (env : OutEnv K Q F V) (b : Bool) (o : OutState K Q F V) (h : OutInv env b o) :
    OutInv env b (o.getFC env).1 ∧ (o.getFC env).1.com = (o.getCom env).1.com ∧
    (o.getFC env).2 = env.force (env.points b) ((env.points b).map env.frequencies) b := by
  obtain ⟨hi, hc, -, -⟩ := out_getCom env b o h
  unfold OutState.getFC
  simp only
  obtain ⟨h1, h2, h3⟩ := hi
  cases hf : (o.getCom env).1.fc with
  | some f =>
    refine ⟨⟨h1, h2, h3⟩, rfl, ?_⟩
    rcases h2 with h2 | h2
    · rw [hf] at h2; simp at h2
    · rw [hf] at h2; simpa using h2
  | none =>
    obtain ⟨e1, e2, -, -, e5, -⟩ := h3 _ hc
    refine ⟨⟨h1, Or.inr ?_, h3⟩, rfl, ?_⟩
    · simp only [e1, e2, e5]
    · simp only [e1, e2, e5]

theorem mapM_rows (env : OutEnv K Q F V) (d : ComDict K Q V) (pts : List Q) (vel : Option (Q → V))
    (e1 : d.qPoints = pts) (e2 : d.frequencies = pts.map env.frequencies) (e3 : d.linewidths = pts.map env.linewidths) (e4 : d.shifts = pts.map env.shifts)
    (e5 : d.velocity = vel.map fun f => pts.map f) :
    (List.range d.qPoints.length).mapM (fun i => do
      let q ← d.qPoints[i]?
      let f ← d.frequencies[i]?
      let l ← d.linewidths[i]?
      let s ← d.shifts[i]?
      match d.velocity with
      | none => some ⟨q, f, l, s, none⟩
      | some v => do
        let v ← v[i]?
        some ⟨q, f, l, s, some v⟩) = some (goodFile env pts vel) := by
  rw [e1, e2, e3, e4, e5]
  by_cases h0 : pts = []
  · subst h0; rfl
  · have hp : 0 < pts.length := List.length_pos_iff.2 h0
    have := mapM_range_some (fun i => do
      let q ← pts[i]?
      let f ← (pts.map env.frequencies)[i]?
      let l ← (pts.map env.linewidths)[i]?
      let s ← (pts.map env.shifts)[i]?
      match vel.map fun f => pts.map f with
      | none => some (⟨q, f, l, s, none⟩ : QRow K Q V)
      | some v => do
        let v ← v[i]?
        some ⟨q, f, l, s, some v⟩)
      (fun i => let q := pts[i]?.getD pts[0]; ⟨q, env.frequencies q, env.linewidths q, env.shifts q, vel.map fun f => f q⟩) pts.length
      (fun i hi => by cases vel <;> simp [hi])
    rw [this]
    congr 1
    unfold goodFile
    apply List.ext_getElem
    · simp
    · intro i h1 h2
      have hi : i < pts.length := by simpa using h1
      simp [hi]

/-- What one write produces in a state of a history with fixed supercell. -/
theorem out_write (env : OutEnv K Q F V) (b : Bool) (o : OutState K Q F V) (h : OutInv env b o) (x : Bool) :
    OutInv env b (o.writeQP env x).1 ∧
    (o.writeQP env x).2 = some (goodFile env (env.points b)
      (if x || (o.com.bind (·.velocity)).isSome then
        some (env.velocity (env.force (env.points b) ((env.points b).map env.frequencies) b)) else none)) ∧
    ((o.writeQP env x).1.com.bind (·.velocity)).isSome = (x || (o.com.bind (·.velocity)).isSome) := by
  obtain ⟨hi, hc, hv, -⟩ := out_getCom env b o h
  obtain ⟨h1, h2, h3⟩ := hi
  obtain ⟨e1, e2, e3, e4, e5, e6⟩ := h3 _ hc
  cases x with
  | false =>
    unfold OutState.writeQP
    simp only [Bool.false_eq_true, if_false, Bool.false_or]
    refine ⟨⟨h1, h2, h3⟩, ?_, ?_⟩
    · refine mapM_rows env _ _ _ e1 e2 e3 e4 ?_
      rw [hv]
      rcases e6 with e6 | e6 <;> simp [e6]
    · rw [hc, hv]; rfl
  | true =>
    obtain ⟨⟨g1, g2, g3⟩, gc, gf⟩ := out_getFC env b (o.getCom env).1 ⟨h1, h2, h3⟩
    unfold OutState.writeQP
    simp only [if_true, Bool.true_or]
    refine ⟨⟨g1, g2, ?_⟩, ?_, ?_⟩
    · intro d hd
      simp only [Option.some.injEq] at hd
      subst hd
      refine ⟨by simp [g1], e2, e3, e4, by simp [g1], Or.inr (by simp [g1, gf])⟩
    · rw [g1, gf]
      exact mapM_rows env ({ (o.getCom env).2 with velocity := some ((env.points b).map (env.velocity (env.force (env.points b) ((env.points b).map env.frequencies) b))), qPoints := env.points b, fcSupercell := b }) (env.points b) (some _) rfl e2 e3 e4 rfl
    · rfl

theorem out_history (env : OutEnv K Q F V) (b : Bool) (h : List OutOp) (hno : ∀ c, OutOp.setMD c ∉ h) :
    OutInv env b (h.foldl (OutState.step env) { useMD := b }) ∧
    (((h.foldl (OutState.step env) { useMD := b }).com.bind (·.velocity)).isSome = true ↔ OutOp.write true ∈ h) := by
  induction h using List.reverseRecOn with
  | nil =>
    refine ⟨⟨rfl, Or.inl rfl, ?_⟩, ?_⟩
    · intro d hd; simp at hd
    · simp
  | append_singleton h o ih =>
    have hno' : ∀ c, OutOp.setMD c ∉ h := fun c hc => hno c (by simp [hc])
    obtain ⟨i1, i2⟩ := ih hno'
    rw [List.foldl_append, List.foldl_cons, List.foldl_nil]
    cases o with
    | setMD c => exact absurd (by simp) (hno c)
    | write x =>
      obtain ⟨w1, -, w3⟩ := out_write env b _ i1 x
      refine ⟨w1, ?_⟩
      simp only [OutState.step]
      rw [w3, Bool.or_eq_true, i2]
      simp only [List.mem_append, List.mem_singleton, OutOp.write.injEq]
      constructor
      · rintro (h | h)
        · exact Or.inr h.symm
        · exact Or.inl h
      · rintro (h | h)
        · exact Or.inr h
        · exact Or.inl h.symm

/-- C94 (part): as long as the supercell setting is not changed, every file written – after any number of files before – has exactly one
entry per commensurate point, in their order, with the frequencies, linewidths and shifts of that same point; group velocities, if present, are those of
that point too. Missing (false, see below): that group velocities are in the file exactly if `with_extra`; changes of the setting. -/
theorem C94_rows_partial (env : OutEnv K Q F V) (b : Bool) (h : List OutOp) (hno : ∀ c, OutOp.setMD c ∉ h) (x : Bool) :
    ∃ vel, ((h.foldl (OutState.step env) { useMD := b }).writeQP env x).2 = some (goodFile env (env.points b) vel) ∧
      (vel.isSome ↔ x = true ∨ OutOp.write true ∈ h) ∧
      ∀ v, vel = some v → v = env.velocity (env.force (env.points b) ((env.points b).map env.frequencies) b) := by
  obtain ⟨i1, i2⟩ := out_history env b h hno
  obtain ⟨-, w2, -⟩ := out_write env b _ i1 x
  refine ⟨_, w2, ?_, ?_⟩
  · rw [← i2]
    cases x <;> simp
  · intro v hv
    split at hv
    · simpa using hv.symm
    · simp at hv

/-- C94 fails: after a file with group velocities, a file written *without* them has them as well (the cached data was changed) –
for every calculation. -/
theorem C94_extra_violated (env : OutEnv K Q F V) (b : Bool) (hp : env.points b ≠ []) :
    ∃ v, (([OutOp.write true].foldl (OutState.step env) { useMD := b }).writeQP env false).2 = some (goodFile env (env.points b) (some v)) ∧
      goodFile env (env.points b) (some v) ≠ goodFile env (env.points b) none := by
  obtain ⟨vel, h1, h2, -⟩ := C94_rows_partial env b [OutOp.write true] (by simp) false
  have : vel.isSome := h2.2 (Or.inr (by simp))
  obtain ⟨v, hv⟩ := Option.isSome_iff_exists.1 this
  refine ⟨v, hv ▸ h1, ?_⟩
  obtain ⟨q, l, hq⟩ := List.exists_cons_of_ne_nil hp
  rw [hq]
  simp [goodFile]

/-- A small calculation: the phonopy supercell has the point 0, the MD supercell the points 1 and 0 (in another order). -/
def switchEnv : OutEnv ℤ ℤ Unit ℤ :=
  { points := fun b => if b then [1, 0] else [0, 1], frequencies := fun q => [10 * q], linewidths := fun _ => [1], shifts := fun _ => [0],
    force := fun _ _ _ => (), velocity := fun _ q => q }

/-- C94 fails: if the supercell setting is changed between two files, the second one has the results of other wave vectors: here the
frequency 0 of the point 0 at the point 1 (and the other way round). -/
theorem C94_switch_violated :
    (([OutOp.write false, OutOp.setMD true].foldl (OutState.step switchEnv) { useMD := false }).writeQP switchEnv true).2 =
      some [⟨1, [0], [1], [0], some 1⟩, ⟨0, [10], [1], [0], some 0⟩] ∧
    goodFile switchEnv (switchEnv.points true) (some id) = [⟨1, [10], [1], [0], some 1⟩, ⟨0, [0], [1], [0], some 0⟩] := by
  decide +kernel

/-- C94: the mesh file: one entry per wave vector of the mesh, with its own frequencies, linewidths and multiplicity. -/
theorem C94_mesh {M : Type} (mesh : List M) (q : M → Q) (freq lw : M → List K) (mult : M → ℕ) :
    meshRows (mesh.map q) (mesh.map mult) (mesh.map freq) (mesh.map lw) = some (mesh.map fun x => (q x, freq x, lw x, mult x)) := by
  unfold meshRows
  by_cases h0 : mesh = []
  · subst h0; rfl
  · have hp : 0 < mesh.length := List.length_pos_iff.2 h0
    rw [List.length_map, mapM_range_some _ (fun i => let x := mesh[i]?.getD mesh[0]; (q x, freq x, lw x, mult x)) mesh.length (fun i hi => by simp [hi])]
    congr 1
    apply List.ext_getElem
    · simp
    · intro i h1 h2
      have hi : i < mesh.length := by simpa using h1
      simp [hi]

end files

/-- non-trivial case: two points, with velocities -/
example : ∃ vel, (([OutOp.write false].foldl (OutState.step switchEnv) { useMD := true }).writeQP switchEnv true).2 = some (goodFile switchEnv [1, 0] vel) ∧
    (vel.isSome ↔ true = true ∨ OutOp.write true ∈ [OutOp.write false]) ∧ ∀ v, vel = some v → v = fun q => q :=
  C94_rows_partial switchEnv true [OutOp.write false] (by simp) true

/-! ## C95 -/

section rfc
variable {K : Type} [Field K] [LinearOrder K] [IsStrictOrderedRing K] [FloorRing K]

/-- C95 fails: `rfc_calc` cannot read any file written by `write_quasiparticles_data` (AttributeError). -/
theorem C95_list_violated (points : List (List K)) (rows : List (List K × List K)) : rfcFrequencies points (yamlOf rows) = none := rfl

/-- C95: the number in the file differs from the value by at most half of the last decimal. -/
theorem C95_decimals (x : K) : |aroundDec 8 x - x| ≤ 1 / (2 * 10 ^ 8) := C16_error x

/-- C95: what the file holds: the rows in their order, each number with its own value to eight decimals, wave vectors and frequencies each in their place. -/
theorem C95_file (rows : List (List K × List K)) : ∃ rows', yamlOf rows = .list rows' ∧
    List.Forall₂ (fun r r' => List.Forall₂ (fun (x y : K) => |y - x| ≤ 1 / (2 * 10 ^ 8) ∧ ∃ m : ℤ, y * 10 ^ 8 = m) r.1 r'.1 ∧
      List.Forall₂ (fun (x y : K) => |y - x| ≤ 1 / (2 * 10 ^ 8) ∧ ∃ m : ℤ, y * 10 ^ 8 = m) r.2 r'.2) rows rows' := by
  have h : ∀ l : List K, List.Forall₂ (fun (x y : K) => |y - x| ≤ 1 / (2 * 10 ^ 8) ∧ ∃ m : ℤ, y * 10 ^ 8 = m) l (l.map (aroundDec 8)) := by
    intro l
    rw [List.forall₂_map_right_iff, List.forall₂_same]
    exact fun x _ => ⟨C16_error x, ⟨_, by unfold aroundDec; rw [div_mul_cancel₀ _ (by positivity)]⟩⟩
  refine ⟨_, rfl, ?_⟩
  rw [List.forall₂_map_right_iff, List.forall₂_same]
  exact fun r _ => ⟨h r.1, h r.2⟩

/-- C95 (part): from a dictionary with the same entries (the format the script expects) the frequencies are found for all commensurate points, in their order,
provided that the points are distinct and have at most eight decimals. -/
theorem C95_dict_partial (points : List (List K)) (key : List K → String) (freq : List K → List K) (file : List (List K)) (hperm : file.Perm points)
    (hnd : points.Nodup) (hdec : ∀ q ∈ points, q.map (aroundDec 8) = q) :
    rfcFrequencies points (.dict (file.map fun q => (key q, q.map (aroundDec 8), freq q))) = some (points.map freq) := by
  have hfile : (file.map fun q => (key q, q.map (aroundDec 8), freq q)) = file.map fun q => (key q, q, freq q) :=
    List.map_congr_left fun q hq => by rw [hdec q (hperm.mem_iff.1 hq)]
  unfold rfcFrequencies
  rw [hfile]
  simp only [Option.some.injEq]
  have hone : ∀ wv ∈ points, ((file.map fun q => (key q, q, freq q)).filter fun r => decide (r.2.1 = wv)).map (fun r => r.2.2) = [freq wv] := by
    intro wv hwv
    rw [List.filter_map, List.map_map]
    have hf : file.filter ((fun r : String × List K × List K => decide (r.2.1 = wv)) ∘ fun q => (key q, q, freq q)) = [wv] := by
      have hnd' : file.Nodup := hperm.nodup_iff.2 hnd
      have : (fun r : String × List K × List K => decide (r.2.1 = wv)) ∘ (fun q => (key q, q, freq q)) = fun q => q == wv := by
        funext q
        simp [Function.comp, beq_eq_decide]
      rw [this, List.filter_beq, List.count_eq_one_of_mem hnd' (hperm.mem_iff.2 hwv)]
      rfl
    rw [hf]; rfl
  rw [List.flatMap_def, List.map_congr_left hone]
  have hfl : ∀ l : List (List K), (l.map fun a => [freq a]).flatten = l.map freq := by
    intro l
    induction l with
    | nil => rfl
    | cons a l ih => simp only [List.map_cons, List.flatten_cons, ih, List.singleton_append]
  exact hfl points

/-- C95 fails even then for points such as 1/3: the entry is not found, and the frequencies of the later points move up. -/
theorem C95_thirds_violated :
    rfcFrequencies [[0, 0, 0], [1 / 3, 0, 0], [1 / 2, 0, 0]]
      (.dict ([("a", [0, 0, 0], [1]), ("b", [1 / 3, 0, 0], [2]), ("c", [1 / 2, 0, 0], [3])].map fun r => (r.1, r.2.1.map (aroundDec 8), r.2.2)))
      = some [[(1 : ℚ)], [3]] := by
  decide +kernel

end rfc

example : rfcFrequencies [[0, 0, 0], [1 / 2, 0, 0]]
      (.dict ([[1 / 2, 0, 0], [0, 0, 0]].map fun q => ("k", q.map (aroundDec 8), q))) = some [[(0 : ℚ), 0, 0], [1 / 2, 0, 0]] :=
  C95_dict_partial [[0, 0, 0], [1 / 2, 0, 0]] (fun _ => "k") id [[1 / 2, 0, 0], [0, 0, 0]] (List.Perm.swap _ _ _) (by decide +kernel) (by decide +kernel)

end Verif
