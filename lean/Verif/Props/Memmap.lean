import Verif.Model.Memmap

/-! # C21: memory-mapped objects -/

set_option autoImplicit false

namespace Verif

variable {D : Type*}

/-- Calls on one of the objects. -/
inductive MapOp
  | relative (o : ℕ) | velocity (o : ℕ) | velocityMass (o : ℕ) | delete (o : ℕ)

/-- Effect of a call. -/
def MapOp.step (disp grad weight : D → D) (w : MapWorld D) : MapOp → MapWorld D
  | .relative o => (w.getRelative disp o).2
  | .velocity o => (w.getVelocity disp grad o).2
  | .velocityMass o => (w.getVelocityMass disp grad weight o).2
  | .delete o => w.delete o

/-- What object `o` returns when it is alone: computed from its own data only. -/
def MapObj.ownValue (disp grad weight : D → D) (x : MapObj D) : MapKind → D
  | .relative => disp x.source
  | .velocity => x.given.getD (grad (disp x.source))
  | .velocityMass => weight (x.given.getD (grad (disp x.source)))

/-- Invariant: every mapped array holds its owner's value, is registered under the owner's name, and no two names share
an inode. -/
structure MapInv (disp grad weight : D → D) (base : ℕ → MapObj D) (w : MapWorld D) : Prop where
  same : ∀ o, (w.objs o).dir = (base o).dir ∧ (w.objs o).source = (base o).source ∧ (w.objs o).given = (base o).given
  value : ∀ o k i, (w.objs o).handle k = some i → w.fs.data i = (base o).ownValue disp grad weight k
  reg : ∀ o k i, (w.objs o).handle k = some i → w.fs.names ((base o).dir, k) = some i
  inj : ∀ n n' i, w.fs.names n = some i → w.fs.names n' = some i → n = n'
  bound : ∀ n i, w.fs.names n = some i → i < w.fs.next

variable {disp grad weight : D → D} {base : ℕ → MapObj D}

theorem inv_store (hdir : ∀ o o', (base o).dir = (base o').dir → o = o') (w : MapWorld D)
    (h : MapInv disp grad weight base w) (o : ℕ) (k : MapKind) :
    MapInv disp grad weight base (w.store o k ((base o).ownValue disp grad weight k)) := by
  obtain ⟨hd, hs, hg⟩ := h.same o
  unfold MapWorld.store MapFS.openWrite
  rw [hd]
  rcases hn : w.fs.names ((base o).dir, k) with _ | i0
  · simp only
    refine ⟨?_, ?_, ?_, ?_, ?_⟩
    · intro o'
      by_cases e : o' = o
      · subst e; simpa using h.same o'
      · simpa [Function.update_of_ne e] using h.same o'
    · intro o' k' i hi
      have step : (w.objs o').handle k' = some i → i ≠ w.fs.next ∧ w.fs.data i = (base o').ownValue disp grad weight k' :=
        fun hh => ⟨Nat.ne_of_lt (h.bound _ _ (h.reg _ _ _ hh)), h.value _ _ _ hh⟩
      by_cases e : o' = o
      · subst e
        simp only [Function.update_self] at hi
        by_cases ek : k' = k
        · subst ek
          simp only [Function.update_self, Option.some.injEq] at hi
          subst hi; simp
        · rw [Function.update_of_ne ek] at hi
          exact (Function.update_of_ne (step hi).1 _ _).trans (step hi).2
      · simp only [Function.update_of_ne e] at hi
        exact (Function.update_of_ne (step hi).1 _ _).trans (step hi).2
    · intro o' k' i hi
      have step : (w.objs o').handle k' = some i → ((base o').dir, k') ≠ ((base o).dir, k) := by
        intro hh e
        have := h.reg _ _ _ hh
        rw [e, hn] at this; cases this
      by_cases e : o' = o
      · subst e
        simp only [Function.update_self] at hi
        by_cases ek : k' = k
        · subst ek
          simp only [Function.update_self, Option.some.injEq] at hi
          subst hi; simp
        · rw [Function.update_of_ne ek] at hi
          exact (Function.update_of_ne (step hi) _ _).trans (h.reg _ _ _ hi)
      · simp only [Function.update_of_ne e] at hi
        exact (Function.update_of_ne (step hi) _ _).trans (h.reg _ _ _ hi)
    · intro n n' i h1 h2
      simp only at h1 h2
      by_cases e1 : n = ((base o).dir, k) <;> by_cases e2 : n' = ((base o).dir, k)
      · rw [e1, e2]
      · subst e1
        simp only [Function.update_self, Option.some.injEq] at h1
        rw [Function.update_of_ne e2] at h2
        have := h.bound _ _ h2; omega
      · subst e2
        simp only [Function.update_self, Option.some.injEq] at h2
        rw [Function.update_of_ne e1] at h1
        have := h.bound _ _ h1; omega
      · rw [Function.update_of_ne e1] at h1; rw [Function.update_of_ne e2] at h2
        exact h.inj _ _ _ h1 h2
    · intro n i hi
      simp only at hi
      by_cases e : n = ((base o).dir, k)
      · subst e
        simp only [Function.update_self, Option.some.injEq] at hi
        simp only; omega
      · rw [Function.update_of_ne e] at hi
        have := h.bound _ _ hi
        simp only; omega
  · simp only
    refine ⟨?_, ?_, ?_, ?_, ?_⟩
    · intro o'
      by_cases e : o' = o
      · subst e; simpa using h.same o'
      · simpa [Function.update_of_ne e] using h.same o'
    · intro o' k' i hi
      have step : (w.objs o').handle k' = some i → (o' ≠ o ∨ k' ≠ k) →
          i ≠ i0 ∧ w.fs.data i = (base o').ownValue disp grad weight k' := by
        intro hh hne
        refine ⟨?_, h.value _ _ _ hh⟩
        intro e
        subst e
        have := h.inj _ _ _ (h.reg _ _ _ hh) hn
        simp only [Prod.mk.injEq] at this
        rcases hne with h1 | h1
        · exact h1 (hdir _ _ this.1)
        · exact h1 this.2
      by_cases e : o' = o
      · subst e
        simp only [Function.update_self] at hi
        by_cases ek : k' = k
        · subst ek
          simp only [Function.update_self, Option.some.injEq] at hi
          subst hi; simp
        · rw [Function.update_of_ne ek] at hi
          have := step hi (Or.inr ek)
          exact (Function.update_of_ne this.1 _ _).trans this.2
      · simp only [Function.update_of_ne e] at hi
        have := step hi (Or.inl e)
        exact (Function.update_of_ne this.1 _ _).trans this.2
    · intro o' k' i hi
      by_cases e : o' = o
      · subst e
        simp only [Function.update_self] at hi
        by_cases ek : k' = k
        · subst ek
          simp only [Function.update_self, Option.some.injEq] at hi
          subst hi; exact hn
        · rw [Function.update_of_ne ek] at hi
          exact h.reg _ _ _ hi
      · simp only [Function.update_of_ne e] at hi
        exact h.reg _ _ _ hi
    · exact h.inj
    · exact h.bound

theorem inv_getRelative (hdir : ∀ o o', (base o).dir = (base o').dir → o = o') (w : MapWorld D)
    (h : MapInv disp grad weight base w) (o : ℕ) :
    (w.getRelative disp o).1 = (base o).ownValue disp grad weight .relative ∧
    MapInv disp grad weight base (w.getRelative disp o).2 := by
  obtain ⟨_, hs, _⟩ := h.same o
  unfold MapWorld.getRelative
  rcases hh : (w.objs o).handle .relative with _ | i
  · refine ⟨by simp only [hs]; rfl, ?_⟩
    simp only [hs]
    exact inv_store hdir w h o .relative
  · exact ⟨h.value _ _ _ hh, h⟩

theorem inv_getVelocity (hdir : ∀ o o', (base o).dir = (base o').dir → o = o') (w : MapWorld D)
    (h : MapInv disp grad weight base w) (o : ℕ) :
    (w.getVelocity disp grad o).1 = (base o).ownValue disp grad weight .velocity ∧
    MapInv disp grad weight base (w.getVelocity disp grad o).2 := by
  obtain ⟨_, hs, hg⟩ := h.same o
  unfold MapWorld.getVelocity
  rw [hg]
  rcases hv : (base o).given with _ | v
  · rcases hh : (w.objs o).handle .velocity with _ | i
    · obtain ⟨h1, h2⟩ := inv_getRelative hdir w h o
      have e : grad (w.getRelative disp o).1 = (base o).ownValue disp grad weight .velocity := by
        rw [h1]; simp [MapObj.ownValue, hv]
      simp only [e]
      exact ⟨trivial, inv_store hdir _ h2 o .velocity⟩
    · exact ⟨h.value _ _ _ hh, h⟩
  · exact ⟨by simp [MapObj.ownValue, hv], h⟩

theorem inv_getVelocityMass (hdir : ∀ o o', (base o).dir = (base o').dir → o = o') (w : MapWorld D)
    (h : MapInv disp grad weight base w) (o : ℕ) :
    (w.getVelocityMass disp grad weight o).1 = (base o).ownValue disp grad weight .velocityMass ∧
    MapInv disp grad weight base (w.getVelocityMass disp grad weight o).2 := by
  unfold MapWorld.getVelocityMass
  rcases hh : (w.objs o).handle .velocityMass with _ | i
  · obtain ⟨h1, h2⟩ := inv_getVelocity hdir w h o
    have e : weight (w.getVelocity disp grad o).1 = (base o).ownValue disp grad weight .velocityMass := by
      rw [h1]; rfl
    simp only [e]
    exact ⟨trivial, inv_store hdir _ h2 o .velocityMass⟩
  · exact ⟨h.value _ _ _ hh, h⟩

theorem inv_delete (hdir : ∀ o o', (base o).dir = (base o').dir → o = o') (w : MapWorld D)
    (h : MapInv disp grad weight base w) (o : ℕ) : MapInv disp grad weight base (w.delete o) := by
  obtain ⟨hd, _, _⟩ := h.same o
  unfold MapWorld.delete
  refine ⟨?_, ?_, ?_, ?_, ?_⟩
  · intro o'
    by_cases e : o' = o
    · subst e; simpa using h.same o'
    · simpa [Function.update_of_ne e] using h.same o'
  · intro o' k i hi
    by_cases e : o' = o
    · subst e; simp at hi
    · simp only [Function.update_of_ne e] at hi; exact h.value _ _ _ hi
  · intro o' k i hi
    by_cases e : o' = o
    · subst e; simp at hi
    · simp only [Function.update_of_ne e] at hi
      have : ¬ ((base o').dir = (w.objs o).dir) := by rw [hd]; exact fun x => e (hdir _ _ x)
      simp [this]; exact h.reg _ _ _ hi
  · intro n n' i h1 h2
    simp only at h1 h2
    split at h1
    · cases h1
    · split at h2
      · cases h2
      · exact h.inj _ _ _ h1 h2
  · intro n i hi
    simp only at hi
    split at hi
    · cases hi
    · exact h.bound _ _ hi

/-- C21 when every object has its own temporary directory or process: in every history of calls on any number of objects,
interleaved in any way, each call returns what the object computes from its own data. -/
theorem C21_separate_partial (disp grad weight : D → D) (base : ℕ → MapObj D) (d0 : D)
    (hfresh : ∀ o k, (base o).handle k = none) (hdir : ∀ o o', (base o).dir = (base o').dir → o = o')
    (ops : List MapOp) (o : ℕ) :
    let w := ops.foldl (MapOp.step disp grad weight) ⟨base, ⟨fun _ => none, fun _ => d0, 0⟩⟩
    (w.getRelative disp o).1 = disp (base o).source ∧
    (w.getVelocity disp grad o).1 = (base o).given.getD (grad (disp (base o).source)) ∧
    (w.getVelocityMass disp grad weight o).1 = weight ((base o).given.getD (grad (disp (base o).source))) := by
  intro w
  have hinit : MapInv disp grad weight base ⟨base, ⟨fun _ => none, fun _ => d0, 0⟩⟩ :=
    ⟨fun o => ⟨rfl, rfl, rfl⟩, by intro o k i hi; simp [hfresh] at hi, by intro o k i hi; simp [hfresh] at hi,
      by intro n n' i hi; simp at hi, by intro n i hi; simp at hi⟩
  have hall : ∀ (ops : List MapOp) (w0 : MapWorld D), MapInv disp grad weight base w0 →
      MapInv disp grad weight base (ops.foldl (MapOp.step disp grad weight) w0) := by
    intro ops
    induction ops with
    | nil => intro w0 h; exact h
    | cons op ops ih =>
      intro w0 h
      apply ih
      cases op with
      | relative o => exact (inv_getRelative hdir w0 h o).2
      | velocity o => exact (inv_getVelocity hdir w0 h o).2
      | velocityMass o => exact (inv_getVelocityMass hdir w0 h o).2
      | delete o => exact inv_delete hdir w0 h o
  have hw := hall ops _ hinit
  exact ⟨(inv_getRelative hdir w hw o).1, (inv_getVelocity hdir w hw o).1, (inv_getVelocityMass hdir w hw o).1⟩

/-- No file without an owner: every file on disk is a cached array of the object of its directory. -/
def NoOrphan (base : ℕ → MapObj D) (w : MapWorld D) : Prop :=
  (∀ o, (w.objs o).dir = (base o).dir) ∧ ∀ d k i, w.fs.names (d, k) = some i → ∃ o, (base o).dir = d ∧ ((w.objs o).handle k).isSome

theorem noOrphan_store (w : MapWorld D) (h : NoOrphan base w) (o : ℕ) (k : MapKind) (x : D) : NoOrphan base (w.store o k x) := by
  obtain ⟨hd, ho⟩ := h
  unfold MapWorld.store MapFS.openWrite
  have hobj : ∀ i, ∀ o', (Function.update w.objs o { w.objs o with handle := Function.update (w.objs o).handle k (some i) } o').dir = (base o').dir := by
    intro i o'
    by_cases e : o' = o
    · subst e; simpa using hd o'
    · simpa [Function.update_of_ne e] using hd o'
  have hkeep : ∀ i (d : ℕ) (k' : MapKind), (∃ o', (base o').dir = d ∧ ((w.objs o').handle k').isSome) →
      ∃ o', (base o').dir = d ∧ ((Function.update w.objs o { w.objs o with handle := Function.update (w.objs o).handle k (some i) } o').handle k').isSome := by
    rintro i d k' ⟨o', h1, h2⟩
    refine ⟨o', h1, ?_⟩
    by_cases e : o' = o
    · subst e
      simp only [Function.update_self]
      by_cases ek : k' = k
      · subst ek; simp
      · simpa [Function.update_of_ne ek] using h2
    · simpa [Function.update_of_ne e] using h2
  rcases hn : w.fs.names ((w.objs o).dir, k) with _ | i0
  · refine ⟨hobj _, ?_⟩
    intro d k' i hi
    simp only at hi
    by_cases e : (d, k') = ((w.objs o).dir, k)
    · simp only [Prod.mk.injEq] at e
      obtain ⟨rfl, rfl⟩ := e
      exact ⟨o, (hd o).symm, by simp⟩
    · rw [Function.update_of_ne e] at hi
      exact hkeep _ d k' (ho d k' i hi)
  · exact ⟨hobj _, fun d k' i hi => hkeep _ d k' (ho d k' i hi)⟩

theorem noOrphan_getRelative (w : MapWorld D) (h : NoOrphan base w) (o : ℕ) : NoOrphan base (w.getRelative disp o).2 := by
  unfold MapWorld.getRelative
  split
  · exact h
  · exact noOrphan_store w h o _ _

theorem noOrphan_getVelocity (w : MapWorld D) (h : NoOrphan base w) (o : ℕ) : NoOrphan base (w.getVelocity disp grad o).2 := by
  unfold MapWorld.getVelocity
  split
  · exact h
  · split
    · exact h
    · exact noOrphan_store _ (noOrphan_getRelative w h o) o _ _

theorem noOrphan_getVelocityMass (w : MapWorld D) (h : NoOrphan base w) (o : ℕ) : NoOrphan base (w.getVelocityMass disp grad weight o).2 := by
  unfold MapWorld.getVelocityMass
  split
  · exact h
  · exact noOrphan_store _ (noOrphan_getVelocity w h o) o _ _

/-- After `delete o` no file of its directory is left (all of them were its own). -/
theorem delete_removes (hdir : ∀ o o', (base o).dir = (base o').dir → o = o') (w : MapWorld D) (h : NoOrphan base w) (o : ℕ) (k : MapKind) :
    (w.delete o).fs.names ((base o).dir, k) = none := by
  unfold MapWorld.delete
  simp only [h.1 o, true_and]
  split
  · rfl
  · rename_i hs
    rcases hn : w.fs.names ((base o).dir, k) with _ | i
    · rfl
    · obtain ⟨o', h1, h2⟩ := h.2 _ _ _ hn
      rw [hdir _ _ h1] at h2
      exact absurd h2 hs

theorem noOrphan_delete (hdir : ∀ o o', (base o).dir = (base o').dir → o = o') (w : MapWorld D) (h : NoOrphan base w) (o : ℕ) : NoOrphan base (w.delete o) := by
  refine ⟨?_, ?_⟩
  · intro o'
    unfold MapWorld.delete
    by_cases e : o' = o
    · subst e; simpa using h.1 o'
    · simpa [Function.update_of_ne e] using h.1 o'
  · intro d k i hi
    by_cases e : d = (base o).dir
    · rw [e, delete_removes hdir w h o k] at hi; cases hi
    · unfold MapWorld.delete at hi ⊢
      simp only [h.1 o, e, false_and, if_false] at hi
      obtain ⟨o', h1, h2⟩ := h.2 _ _ _ hi
      have : o' ≠ o := by rintro rfl; exact e h1.symm
      exact ⟨o', h1, by simpa [Function.update_of_ne this] using h2⟩

/-- **C21** (temporary files): when every object has its own directory or process, after any history of calls a deleted object leaves none of its temporary files, and deleting it does not remove a file of another one. -/
theorem C21_cleanup (disp grad weight : D → D) (base : ℕ → MapObj D) (d0 : D)
    (hfresh : ∀ o k, (base o).handle k = none) (hdir : ∀ o o', (base o).dir = (base o').dir → o = o') (ops : List MapOp) (o : ℕ) :
    let w := ops.foldl (MapOp.step disp grad weight) ⟨base, ⟨fun _ => none, fun _ => d0, 0⟩⟩
    (∀ k, (w.delete o).fs.names ((base o).dir, k) = none) ∧ ∀ o' k, o' ≠ o → (w.delete o).fs.names ((base o').dir, k) = w.fs.names ((base o').dir, k) := by
  intro w
  have hinit : NoOrphan base (⟨base, ⟨fun _ => none, fun _ => d0, 0⟩⟩ : MapWorld D) := ⟨fun _ => rfl, by intro d k i hi; simp at hi⟩
  have hall : ∀ (ops : List MapOp) (w0 : MapWorld D), NoOrphan base w0 → NoOrphan base (ops.foldl (MapOp.step disp grad weight) w0) := by
    intro ops
    induction ops with
    | nil => intro w0 h; exact h
    | cons op ops ih =>
      intro w0 h
      apply ih
      cases op with
      | relative o => exact noOrphan_getRelative w0 h o
      | velocity o => exact noOrphan_getVelocity w0 h o
      | velocityMass o => exact noOrphan_getVelocityMass w0 h o
      | delete o => exact noOrphan_delete hdir w0 h o
  have hw := hall ops _ hinit
  refine ⟨delete_removes hdir w hw o, fun o' k hne => ?_⟩
  have : ¬ (base o').dir = (base o).dir := fun e => hne (hdir _ _ e)
  have hd : (w.objs o).dir = (base o).dir := hw.1 o
  simp only [MapWorld.delete, hd, this, false_and, if_false]

/-- Two objects in different directories meet the hypotheses of C21_separate_partial. -/
example : ∃ base : ℕ → MapObj ℕ, (∀ o k, (base o).handle k = none) ∧ (base 0).source ≠ (base 1).source ∧
    ∀ o o', (base o).dir = (base o').dir → o = o' :=
  ⟨fun o => { dir := o, source := o }, fun _ _ => rfl, by simp, fun _ _ h => h⟩

/-- C21, negation: two objects of the same process. Whatever the data, after object 0 and then object 1 compute the mass
weighted velocity from given velocities, object 0 returns the one of object 1. -/
theorem C21_violated (disp grad weight : D → D) (d0 v0 v1 : D) :
    let base : ℕ → MapObj D := fun o => { dir := 0, source := d0, given := some (if o = 0 then v0 else v1) }
    let w := [MapOp.velocityMass 0, MapOp.velocityMass 1].foldl (MapOp.step disp grad weight)
      ⟨base, ⟨fun _ => none, fun _ => d0, 0⟩⟩
    (w.getVelocityMass disp grad weight 0).1 = weight v1 := by
  simp [MapOp.step, MapWorld.getVelocityMass, MapWorld.getVelocity, MapWorld.store, MapFS.openWrite]

end Verif
