import Verif.Model.Threads
import Mathlib.Logic.Relation
import Mathlib.Algebra.BigOperators.Ring.Finset

/-! # C115: the spectra do not depend on how the threads are scheduled -/

set_option autoImplicit false
set_option linter.unusedSectionVars false

namespace Verif

variable {ι : Type} [DecidableEq ι]

/-! ## What one iteration does to its own variables and its own element of the array -/

/-- `AngularFrequency`, register, element of the array. -/
abbrev Cell := ℝ × ℝ × ℝ

/-- An instruction in an iteration with angular frequency `w`. -/
def Micro.own (w : ℝ) (op : Micro) (c : Cell) : Cell :=
  match op with
  | .angular => (w, c.2.1, c.2.2)
  | .clear => (c.1, c.2.1, 0)
  | .load => (c.1, c.2.2, c.2.2)
  | .add f => (c.1, c.2.1, c.2.1 + f c.1)
  | .scale k => (c.1, c.2.1, c.2.1 * k)
  | .put f => (c.1, c.2.1, f c.1)

/-- A list of instructions. -/
def ownRun (w : ℝ) (ops : List Micro) (c : Cell) : Cell := ops.foldl (fun c op => op.own w c) c

/-- The angular frequency of iteration `i`. -/
noncomputable def angularOf (freqs : List ℝ) (i : ℕ) : ℝ := freqs.getD i 0 * 2 * Real.pi

/-- The variables of a thread and its element. -/
def Team.cell (s : Team ι) (t : ι) : Cell := ((s.threads t).ang, (s.threads t).tmp, s.array (s.threads t).i)

theorem exec_other (freqs : List ℝ) (op : Micro) (th : Thread) (a : ℕ → ℝ) (j : ℕ) (h : j ≠ th.i) : (op.exec freqs th a).2 j = a j := by
  cases op <;> simp [Micro.exec, Function.update_of_ne h]

theorem exec_thread (freqs : List ℝ) (op : Micro) (th : Thread) (a : ℕ → ℝ) : (op.exec freqs th a).1.i = th.i ∧ (op.exec freqs th a).1.code = th.code := by
  cases op <;> simp [Micro.exec]

theorem exec_own (freqs : List ℝ) (op : Micro) (th : Thread) (a : ℕ → ℝ) :
    ((op.exec freqs th a).1.ang, (op.exec freqs th a).1.tmp, (op.exec freqs th a).2 th.i) = op.own (angularOf freqs th.i) (th.ang, th.tmp, a th.i) := by
  cases op <;> simp [Micro.exec, Micro.own, angularOf]

/-! ## The invariant -/

/-- Every iteration waits, or is being done by exactly one thread that is somewhere in the body, or is done. -/
structure Team.Inv (freqs : List ℝ) (body : List Micro) (n : ℕ) (s : Team ι) : Prop where
  nodup : s.waiting.Nodup
  small : ∀ i ∈ s.waiting, i < n
  running : ∀ t, (s.threads t).code ≠ [] → (s.threads t).i < n ∧ (s.threads t).i ∉ s.waiting ∧
    ∃ pre c, body = pre ++ (s.threads t).code ∧ s.cell t = ownRun (angularOf freqs (s.threads t).i) pre c
  alone : ∀ t t', t ≠ t' → (s.threads t).code ≠ [] → (s.threads t').code ≠ [] → (s.threads t).i ≠ (s.threads t').i
  done : ∀ i < n, i ∉ s.waiting → (∀ t, (s.threads t).code ≠ [] → (s.threads t).i ≠ i) → ∃ c, s.array i = (ownRun (angularOf freqs i) body c).2.2

theorem inv_start (freqs : List ℝ) (body : List Micro) (n : ℕ) (s : Team ι) (h : s.IsStart n) : s.Inv freqs body n := by
  obtain ⟨h1, h2⟩ := h
  refine ⟨by rw [h1]; exact List.nodup_range, by simp [h1], fun t ht => absurd (h2 t) ht, fun t t' _ ht => absurd (h2 t) ht, ?_⟩
  intro i hi hw
  rw [h1] at hw
  simp [hi] at hw

theorem inv_step (freqs : List ℝ) (body : List Micro) (n : ℕ) (s s' : Team ι) (hs : s.Inv freqs body n) (h : Team.Step freqs body s s') : s'.Inv freqs body n := by
  cases h with
  | take t i idle mem =>
    have hi := hs.small i mem
    have hnot : i ∉ s.waiting.erase i := fun h => hs.nodup.not_mem_erase h
    have hother : ∀ t', t' ≠ t → Function.update s.threads t { s.threads t with i := i, code := body } t' = s.threads t' := fun t' h => Function.update_of_ne h _ _
    have hself : Function.update s.threads t { s.threads t with i := i, code := body } t = { s.threads t with i := i, code := body } := Function.update_self _ _ _
    refine ⟨hs.nodup.erase _, fun j hj => hs.small j (List.mem_of_mem_erase hj), ?_, ?_, ?_⟩
    · intro t' ht'
      by_cases e : t' = t
      · subst e
        simp only [hself, Team.cell] at ht' ⊢
        exact ⟨hi, hnot, [], ((s.threads t').ang, (s.threads t').tmp, s.array i), rfl, rfl⟩
      · simp only [hother t' e, Team.cell] at ht' ⊢
        obtain ⟨h1, h2, h3⟩ := hs.running t' ht'
        exact ⟨h1, fun h => h2 (List.mem_of_mem_erase h), h3⟩
    · intro t1 t2 hne h1 h2
      have key : ∀ t', t' ≠ t → (s.threads t').code ≠ [] → (s.threads t').i ≠ i := fun t' _ hc e => (hs.running t' hc).2.1 (e ▸ mem)
      by_cases e1 : t1 = t
      · subst e1
        have e2 : t2 ≠ t1 := fun h => hne h.symm
        simp only [hself, hother t2 e2] at h1 h2 ⊢
        exact fun h => key t2 e2 h2 h.symm
      · by_cases e2 : t2 = t
        · subst e2
          simp only [hself, hother t1 e1] at h1 h2 ⊢
          exact key t1 e1 h1
        · simp only [hother t1 e1, hother t2 e2] at h1 h2 ⊢
          exact hs.alone t1 t2 hne h1 h2
    · intro j hj hw hrun
      by_cases e : j = i
      · subst e
        by_cases hb : body = []
        · exact ⟨(0, 0, s.array j), by rw [hb]; rfl⟩
        · have := hrun t
          simp only [hself] at this
          exact absurd rfl (this hb)
      · refine hs.done j hj (fun h => hw ((List.mem_erase_of_ne e).2 h)) ?_
        intro t' ht' e'
        have hne : t' ≠ t := fun h => by subst h; exact ht' idle
        have := hrun t'
        simp only [hother t' hne] at this
        exact this ht' e'
  | run t op rest next =>
    set r := op.exec freqs { s.threads t with code := rest } s.array with hr
    have hri : r.1.i = (s.threads t).i := (exec_thread freqs op _ s.array).1
    have hrc : r.1.code = rest := (exec_thread freqs op _ s.array).2
    have hra : ∀ j, j ≠ (s.threads t).i → r.2 j = s.array j := fun j hj => exec_other freqs op _ s.array j hj
    have hro := exec_own freqs op { s.threads t with code := rest } s.array
    rw [← hr] at hro
    have hother : ∀ t', t' ≠ t → Function.update s.threads t r.1 t' = s.threads t' := fun t' h => Function.update_of_ne h _ _
    have hself : Function.update s.threads t r.1 t = r.1 := Function.update_self _ _ _
    have hrun : (s.threads t).code ≠ [] := by rw [next]; simp
    obtain ⟨h1, h2, pre, c, h3, h4⟩ := hs.running t hrun
    have hcell : (r.1.ang, r.1.tmp, r.2 (s.threads t).i) = ownRun (angularOf freqs (s.threads t).i) (pre ++ [op]) c := by
      have e : ownRun (angularOf freqs (s.threads t).i) (pre ++ [op]) c = op.own (angularOf freqs (s.threads t).i) (ownRun (angularOf freqs (s.threads t).i) pre c) := by
        simp [ownRun, List.foldl_append]
      rw [e, ← h4]
      exact hro
    have hbody : body = (pre ++ [op]) ++ rest := by rw [h3, next]; simp
    refine ⟨hs.nodup, hs.small, ?_, ?_, ?_⟩
    · intro t' ht'
      by_cases e : t' = t
      · subst e
        simp only [hself, Team.cell, hri, hrc] at ht' ⊢
        exact ⟨h1, h2, pre ++ [op], c, hbody, hcell⟩
      · simp only [hother t' e, Team.cell] at ht' ⊢
        obtain ⟨k1, k2, k3⟩ := hs.running t' ht'
        rw [hra _ (hs.alone t' t e ht' hrun)]
        exact ⟨k1, k2, k3⟩
    · intro t1 t2 hne k1 k2
      by_cases e1 : t1 = t
      · subst e1
        have e2 : t2 ≠ t1 := fun h => hne h.symm
        simp only [hself, hother t2 e2, hri] at k1 k2 ⊢
        exact hs.alone t1 t2 hne hrun k2
      · by_cases e2 : t2 = t
        · subst e2
          simp only [hself, hother t1 e1, hri] at k1 k2 ⊢
          exact hs.alone t1 t2 hne k1 hrun
        · simp only [hother t1 e1, hother t2 e2] at k1 k2 ⊢
          exact hs.alone t1 t2 hne k1 k2
    · intro j hj hw hall
      by_cases e : j = (s.threads t).i
      · subst e
        have hrest : rest = [] := by
          by_contra hne
          have := hall t
          simp only [hself, hri, hrc] at this
          exact this hne rfl
        refine ⟨c, ?_⟩
        rw [hbody, hrest, List.append_nil, ← hcell]
      · show ∃ c, r.2 j = _
        rw [hra j e]
        refine hs.done j hj hw ?_
        intro t' ht' e'
        by_cases h : t' = t
        · subst h
          exact e e'.symm
        · have := hall t'
          simp only [hother t' h] at this
          exact this ht' e'

theorem inv_reach (freqs : List ℝ) (body : List Micro) (n : ℕ) (s s' : Team ι) (hs : s.IsStart n) (h : Relation.ReflTransGen (Team.Step freqs body) s s') : s'.Inv freqs body n := by
  induction h with
  | refl => exact inv_start freqs body n s hs
  | tail _ hstep ih => exact inv_step freqs body n _ _ ih hstep

/-- **C115** (any loop whose result does not depend on what was in the variables before): when the loop ends, every element is what its iteration alone gives. -/
theorem C115_schedule (freqs : List ℝ) (body : List Micro) (n : ℕ) (value : ℕ → ℝ) (hv : ∀ i < n, ∀ c, (ownRun (angularOf freqs i) body c).2.2 = value i) (s s' : Team ι) (hs : s.IsStart n)
    (h : Relation.ReflTransGen (Team.Step freqs body) s s') (hd : s'.IsDone) : ∀ i < n, s'.array i = value i := by
  intro i hi
  obtain ⟨c, hc⟩ := (inv_reach freqs body n s s' hs h).done i hi (by simp [hd.1]) fun t ht => absurd (hd.2 t) ht
  rw [hc, hv i hi c]

/-- **C115**: no data race: two threads that are both at work never use the same element of the array, and what a thread does next changes no other element, neither does it depend on one. -/
theorem C115_race_free (freqs : List ℝ) (body : List Micro) (n : ℕ) (s s' : Team ι) (hs : s.IsStart n) (h : Relation.ReflTransGen (Team.Step freqs body) s s') (t t' : ι) (hne : t ≠ t')
    (ht : (s'.threads t).code ≠ []) (ht' : (s'.threads t').code ≠ []) :
    (s'.threads t).i ≠ (s'.threads t').i ∧ ∀ (op : Micro) (th : Thread) (a b : ℕ → ℝ), (∀ j ≠ th.i, (op.exec freqs th a).2 j = a j) ∧
      (a th.i = b th.i → (op.exec freqs th a).1 = (op.exec freqs th b).1 ∧ (op.exec freqs th a).2 th.i = (op.exec freqs th b).2 th.i) := by
  refine ⟨(inv_reach freqs body n s s' hs h).alone t t' hne ht ht', fun op th a b => ⟨fun j hj => exec_other freqs op th a j hj, fun hab => ?_⟩⟩
  cases op <;> simp [Micro.exec, hab]

/-- **C115**: the loop never gets stuck: as long as it has not ended some thread can go on. -/
theorem C115_progress [Nonempty ι] (freqs : List ℝ) (body : List Micro) (s : Team ι) (h : ¬ s.IsDone) : ∃ s', Team.Step freqs body s s' := by
  by_cases hr : ∃ t, (s.threads t).code ≠ []
  · obtain ⟨t, ht⟩ := hr
    obtain ⟨op, rest, hc⟩ := List.exists_cons_of_ne_nil ht
    exact ⟨_, Team.Step.run s t op rest hc⟩
  · push Not at hr
    have hw : s.waiting ≠ [] := fun hw => h ⟨hw, hr⟩
    obtain ⟨i, rest, hi⟩ := List.exists_cons_of_ne_nil hw
    obtain ⟨t⟩ := ‹Nonempty ι›
    exact ⟨_, Team.Step.take s t i (hr t) (by rw [hi]; simp)⟩

/-- The instructions left to do. -/
def Team.left [Fintype ι] (body : List Micro) (s : Team ι) : ℕ := s.waiting.length * (body.length + 1) + ∑ t, (s.threads t).code.length

theorem left_step [Fintype ι] (freqs : List ℝ) (body : List Micro) (s s' : Team ι) (h : Team.Step freqs body s s') : s'.left body + 1 = s.left body := by
  have key : ∀ (f : ι → Thread) (t : ι) (th : Thread), ∑ u, (Function.update f t th u).code.length + (f t).code.length = ∑ u, (f u).code.length + th.code.length := by
    intro f t th
    rw [← Finset.add_sum_erase _ _ (Finset.mem_univ t), ← Finset.add_sum_erase (a := t) _ (fun u => (f u).code.length) (Finset.mem_univ t), Function.update_self]
    have : ∑ u ∈ Finset.univ.erase t, (Function.update f t th u).code.length = ∑ u ∈ Finset.univ.erase t, (f u).code.length := by
      refine Finset.sum_congr rfl fun u hu => ?_
      rw [Function.update_of_ne (Finset.ne_of_mem_erase hu)]
    omega
  cases h with
  | take t i idle mem =>
    have := key s.threads t { s.threads t with i := i, code := body }
    rw [idle] at this
    have hl := List.length_erase_of_mem mem
    have hpos := List.length_pos_of_mem mem
    simp only [Team.left, List.length_nil] at this ⊢
    rw [hl]
    obtain ⟨m, hm⟩ : ∃ m, s.waiting.length = m + 1 := ⟨_, (Nat.succ_pred_eq_of_pos hpos).symm⟩
    rw [hm, Nat.add_sub_cancel]
    have h2 : (m + 1) * (body.length + 1) = m * (body.length + 1) + body.length + 1 := by ring
    omega
  | run t op rest next =>
    have := key s.threads t (op.exec freqs { s.threads t with code := rest } s.array).1
    rw [next, (exec_thread freqs op _ s.array).2] at this
    simp only [Team.left, List.length_cons] at this ⊢
    omega

/-- **C115**: every schedule comes to an end, after the same number of steps. -/
theorem C115_ends [Fintype ι] (freqs : List ℝ) (body : List Micro) (n : ℕ) (run : ℕ → Team ι) (hs : (run 0).IsStart n) (m : ℕ) (h : ∀ k < m, Team.Step freqs body (run k) (run (k + 1))) :
    m ≤ n * (body.length + 1) ∧ ((run m).IsDone → m = n * (body.length + 1)) := by
  have h0 : (run 0).left body = n * (body.length + 1) := by simp [Team.left, hs.1, hs.2]
  have hk : ∀ k ≤ m, (run k).left body + k = n * (body.length + 1) := by
    intro k
    induction k with
    | zero => intro _; simpa using h0
    | succ k ih =>
      intro hkm
      have h1 := ih (by omega)
      have h2 := left_step freqs body _ _ (h k (by omega))
      omega
  have := hk m le_rfl
  refine ⟨by omega, fun hd => ?_⟩
  have : (run m).left body = 0 := by simp [Team.left, hd.1, hd.2]
  omega

/-- **C115**: from every start the loop can be, and (by `C115_ends`) always is, brought to its end. -/
theorem C115_finishes [Fintype ι] [Nonempty ι] (freqs : List ℝ) (body : List Micro) (s : Team ι) : ∃ s', Relation.ReflTransGen (Team.Step freqs body) s s' ∧ s'.IsDone := by
  generalize hk : s.left body = k
  induction k generalizing s with
  | zero =>
    refine ⟨s, Relation.ReflTransGen.refl, ?_⟩
    by_contra h
    obtain ⟨s', hs'⟩ := C115_progress freqs body s h
    have := left_step freqs body s s' hs'
    omega
  | succ k ih =>
    by_cases h : s.IsDone
    · exact ⟨s, Relation.ReflTransGen.refl, h⟩
    · obtain ⟨s', hs'⟩ := C115_progress freqs body s h
      have := left_step freqs body s s' hs'
      obtain ⟨s'', h1, h2⟩ := ih s' (by omega)
      exact ⟨s'', Relation.ReflTransGen.head hs' h1, h2⟩

/-! ## The two routines -/

theorem exceptMapM_some {α : Type} {ε : Type} (g : α → ℝ) (f : α → Except ε ℝ) : ∀ (l : List α) (r : List ℝ), l.mapM f = .ok r → (∀ x ∈ l, ∀ y, f x = .ok y → g x = y) → r = l.map g
  | [], r, h, _ => by
    rw [List.mapM_nil] at h
    cases h
    rfl
  | x :: l, r, h, hg => by
    rw [List.mapM_cons] at h
    cases hx : f x with
    | error e => rw [hx] at h; cases h
    | ok y =>
      cases hl : l.mapM f with
      | error e => rw [hx, hl] at h; cases h
      | ok ys =>
        rw [hx, hl] at h
        cases h
        rw [List.map_cons, ← exceptMapM_some g f l ys hl fun z hz => hg z (by simp [hz]), hg x (by simp) y hx]

/-- **C115**: the direct Fourier spectrum is the same for every number of threads and every schedule. -/
theorem C115_fourier (fuel : ℕ) (freqs : List ℝ) (v : List ℂ) (dt : ℝ) (inc : ℕ) (method : ℤ) (spectrum : List ℝ) (hok : correlationPar fuel freqs v dt inc method = .ok spectrum) (s s' : Team ι)
    (hs : s.IsStart freqs.length) (h : Relation.ReflTransGen (Team.Step freqs (correlationBody fuel v dt inc method.toNat)) s s') (hd : s'.IsDone) :
    (List.range freqs.length).map s'.array = spectrum := by
  unfold correlationPar at hok
  split at hok
  · cases hok
  have hsp := exceptMapM_some (fun f => valueOf (evaluateCorrelation fuel (f * 2 * Real.pi) v dt inc method.toNat)) _ freqs spectrum hok (fun x _ y hy => by simp only [hy, valueOf])
  have := C115_schedule freqs _ freqs.length (fun i => valueOf (evaluateCorrelation fuel (freqs.getD i 0 * 2 * Real.pi) v dt inc method.toNat)) (fun i _ c => rfl) s s' hs h hd
  rw [hsp]
  refine List.ext_getElem (by simp) fun i h1 h2 => ?_
  have hi : i < freqs.length := by simpa using h1
  rw [List.getElem_map, List.getElem_range, List.getElem_map, this i hi, List.getD_eq_getElem?_getD, List.getElem?_eq_getElem hi, Option.getD_some]

/-- **C115**: the maximum entropy spectrum is the same for every number of threads and every schedule. -/
theorem C115_mem (slack : ℕ) (junk : ℕ → ℕ → ℕ → ℝ) (freqs : List ℝ) (v : List ℂ) (dt : ℝ) (M : ℕ) (spectrum : List ℝ) (hok : mem slack junk freqs v dt M = .ok spectrum) :
    ∃ body, memBody slack junk v dt M = .ok body ∧ ∀ s s' : Team ι, s.IsStart freqs.length → Relation.ReflTransGen (Team.Step freqs body) s s' → s'.IsDone →
      (List.range freqs.length).map s'.array = spectrum := by
  unfold mem at hok
  unfold memBody
  simp only at hok ⊢
  generalize hr : getCoefficients (junk 0) _ _ _ _ = r at hok ⊢
  cases r with
  | error e => cases hok
  | ok r =>
  generalize hi : getCoefficients (junk 1) _ _ _ _ = q at hok ⊢
  cases q with
  | error e => cases hok
  | ok q =>
  refine ⟨_, rfl, fun s s' hs h hd => ?_⟩
  set value : ℝ → ℝ := fun f => (0 + (if r.1 ≠ 0 then valueOf (frequencyEvaluation (f * 2 * Real.pi * dt) r.2 M r.1) else 0)
    + (if q.1 ≠ 0 then valueOf (frequencyEvaluation (f * 2 * Real.pi * dt) q.2 M q.1) else 0)) * dt with hvalue
  have hsp := exceptMapM_some value _ freqs spectrum hok (by
    intro x _ y hy
    by_cases h1 : r.1 = 0 <;> by_cases h2 : q.1 = 0
    · simp only [h1, h2, ne_eq, not_true_eq_false, if_false] at hy
      cases hy
      simp [hvalue, h1, h2]
    · simp only [h1, h2, ne_eq, not_true_eq_false, not_false_eq_true, if_false, if_true] at hy
      cases e2 : frequencyEvaluation (x * 2 * Real.pi * dt) q.2 M q.1 with
      | error e => rw [e2] at hy; cases hy
      | ok b => rw [e2] at hy; cases hy; simp [hvalue, h1, h2, e2, valueOf]
    · simp only [h1, h2, ne_eq, not_true_eq_false, not_false_eq_true, if_false, if_true] at hy
      cases e1 : frequencyEvaluation (x * 2 * Real.pi * dt) r.2 M r.1 with
      | error e => rw [e1] at hy; cases hy
      | ok a => rw [e1] at hy; cases hy; simp [hvalue, h1, h2, e1, valueOf]
    · simp only [h1, h2, ne_eq, not_false_eq_true, if_true] at hy
      cases e1 : frequencyEvaluation (x * 2 * Real.pi * dt) r.2 M r.1 with
      | error e => rw [e1] at hy; cases hy
      | ok a =>
        cases e2 : frequencyEvaluation (x * 2 * Real.pi * dt) q.2 M q.1 with
        | error e => rw [e1, e2] at hy; cases hy
        | ok b => rw [e1, e2] at hy; cases hy; simp [hvalue, h1, h2, e1, e2, valueOf])
  have := C115_schedule freqs _ freqs.length (fun i => value (freqs.getD i 0)) (fun i _ c => by
    by_cases h1 : r.1 = 0 <;> by_cases h2 : q.1 = 0 <;> simp [ownRun, Micro.own, angularOf, hvalue, h1, h2]) s s' hs h hd
  rw [hsp]
  refine List.ext_getElem (by simp) fun i h1 h2 => ?_
  have hi : i < freqs.length := by simpa using h1
  rw [List.getElem_map, List.getElem_range, List.getElem_map, this i hi, List.getD_eq_getElem?_getD, List.getElem?_eq_getElem hi, Option.getD_some]

/-! ## Examples -/

/-- Two threads, three frequencies, garbage everywhere. -/
noncomputable def exampleTeam : Team Bool := { threads := fun t => { i := 7, ang := if t then 1 else 2, tmp := 3, code := [] }, array := fun i => i, waiting := List.range 3 }

/-- The direct Fourier routine with two threads. -/
example : ∃ s', Relation.ReflTransGen (Team.Step [1, 2, 3] (correlationBody 5 [1, Complex.I] 1 1 1)) exampleTeam s' ∧ s'.IsDone ∧
    ∀ spectrum, correlationPar 5 [1, 2, 3] [1, Complex.I] 1 1 1 = .ok spectrum → (List.range 3).map s'.array = spectrum := by
  obtain ⟨s', h1, h2⟩ := C115_finishes [1, 2, 3] (correlationBody 5 [1, Complex.I] 1 1 1) exampleTeam
  exact ⟨s', h1, h2, fun spectrum h => C115_fourier 5 [1, 2, 3] [1, Complex.I] 1 1 1 spectrum h exampleTeam s' ⟨rfl, fun _ => rfl⟩ h1 h2⟩

/-- That routine does return a spectrum. -/
example : ∃ spectrum, correlationPar 5 [1, 2, 3] [1, Complex.I] 1 1 1 = .ok spectrum := ⟨_, rfl⟩

/-- Both threads at work at once, in the middle of the body, on the last and on the first frequency. -/
example (v : List ℂ) : ∃ s', Relation.ReflTransGen (Team.Step [1, 2, 3] (correlationBody 5 v 1 1 1)) exampleTeam s' ∧ (s'.threads true).i = 2 ∧ (s'.threads false).i = 0 ∧
    (s'.threads true).code.length = 1 ∧ (s'.threads false).code.length = 2 := by
  have h1 := Team.Step.take (freqs := [1, 2, 3]) (body := correlationBody 5 v 1 1 1) exampleTeam true 2 rfl (by decide)
  have h2 := Team.Step.run (freqs := [1, 2, 3]) (body := correlationBody 5 v 1 1 1) _ true .angular [.put fun w => valueOf (evaluateCorrelation 5 w v 1 1 1)]
    rfl |> fun h => (Relation.ReflTransGen.refl.tail h1).tail h
  have h3 := h2.tail (Team.Step.take (freqs := [1, 2, 3]) (body := correlationBody 5 v 1 1 1) _ false 0 rfl (by show 0 ∈ (List.range 3).erase 2; decide))
  exact ⟨_, h3, rfl, rfl, rfl, rfl⟩

end Verif
