import Verif.Model.HeapMem
import Verif.Props.Heap
import Verif.Props.Mem

/-! # C117: memory of the maximum entropy method -/

set_option autoImplicit false
set_option linter.unusedSectionVars false

namespace Verif

/-- A block with the contents of an array of the functional model. -/
def Rep (h : Heap ℝ) (b : ℕ) (a : CArr ℝ) : Prop := h.live b = some ⟨a.size, fun i => some (.num (a.val i))⟩

/-- Nothing else changed. -/
def Only (h h' : Heap ℝ) (S : Finset ℕ) : Prop := h'.next = h.next ∧ ∀ b, b ∉ S → h'.live b = h.live b

theorem Only.refl (h : Heap ℝ) (S : Finset ℕ) : Only h h S := ⟨rfl, fun _ _ => rfl⟩

theorem Only.trans {h h' h'' : Heap ℝ} {S : Finset ℕ} (a : Only h h' S) (b : Only h' h'' S) : Only h h'' S := ⟨b.1.trans a.1, fun x hx => (b.2 x hx).trans (a.2 x hx)⟩

theorem Only.mono {h h' : Heap ℝ} {S T : Finset ℕ} (a : Only h h' S) (hst : S ⊆ T) : Only h h' T := ⟨a.1, fun x hx => a.2 x fun hs => hx (hst hs)⟩

theorem Rep.frame {h h' : Heap ℝ} {b : ℕ} {a : CArr ℝ} (r : Rep h b a) {S : Finset ℕ} (ho : Only h h' S) (hb : b ∉ S) : Rep h' b a := (ho.2 b hb).trans r

theorem except_bind {α β : Type} {x : Except CErr α} {f : α → Except CErr β} {z : β} (e : (x >>= f) = .ok z) : ∃ y, x = .ok y ∧ f y = .ok z := by
  cases x with
  | error _ => cases e
  | ok y => exact ⟨y, rfl, e⟩

theorem carr_get {a : CArr ℝ} {i : ℕ} {x : ℝ} (e : a.get i = .ok x) : i < a.size ∧ x = a.val i := by
  unfold CArr.get at e
  split at e
  · rename_i hi
    cases e
    exact ⟨hi, rfl⟩
  · cases e

theorem carr_set {a a' : CArr ℝ} {i : ℕ} {x : ℝ} (e : a.set i x = .ok a') : i < a.size ∧ a' = { a with val := Function.update a.val i x } := by
  unfold CArr.set at e
  split at e
  · rename_i hi
    cases e
    exact ⟨hi, rfl⟩
  · cases e

theorem Rep.get {h : Heap ℝ} {b : ℕ} {a : CArr ℝ} (r : Rep h b a) {i : ℕ} {x : ℝ} (e : a.get i = .ok x) : Runs h (getNum b i) fun y h' => y = x ∧ h' = h := by
  obtain ⟨hi, rfl⟩ := carr_get e
  exact Runs.getNum r hi rfl ⟨rfl, rfl⟩

theorem Rep.set {h : Heap ℝ} {b : ℕ} {a a' : CArr ℝ} (r : Rep h b a) {i : ℕ} {x : ℝ} (e : a.set i x = .ok a') : Runs h (hwrite b i (.num x)) fun _ h' => Rep h' b a' ∧ Only h h' {b} := by
  obtain ⟨hi, rfl⟩ := carr_set e
  refine Runs.hwrite r hi ⟨?_, rfl, fun c hc => ?_⟩
  · unfold Rep
    simp only [Function.update_self]
    congr 2
    funext j
    by_cases hj : j = i
    · subst hj; simp
    · rw [Function.update_of_ne hj, Function.update_of_ne hj]
  · simp only [Finset.mem_singleton] at hc
    simp only [Function.update_of_ne hc]

/-- A loop of the functional model that ends well is followed by the loop in memory. -/
theorem Runs.ofFold {σ τ : Type} (f : τ → ℕ → Except CErr τ) (I : τ → σ → Heap ℝ → Prop) {body : ℕ → σ → HeapM ℝ σ} (n : ℕ) : ∀ {t z : τ} {s : σ} {h : Heap ℝ}, (List.range n).foldlM f t = .ok z → I t s h →
    (∀ i < n, ∀ t t' s h, I t s h → f t i = .ok t' → Runs h (body i s) (I t')) → Runs h (cLoop n s body) (I z) := by
  induction n with
  | zero =>
    intro t z s h e hI _
    simp only [List.range_zero, List.foldlM_nil] at e
    cases e
    exact Runs.pure hI
  | succ n ih =>
    intro t z s h e hI hb
    rw [List.range_succ, List.foldlM_append] at e
    obtain ⟨y, e1, e2⟩ := except_bind e
    rw [List.foldlM_cons] at e2
    obtain ⟨z', e3, e4⟩ := except_bind e2
    cases e4
    unfold cLoop
    exact Runs.bind (ih e1 hI fun i hi => hb i (by omega)) fun s' h' hr => hb n (by omega) _ _ _ _ hr e3

theorem sumSq_runs {h : Heap ℝ} {data : ℕ} {d : CArr ℝ} (hd : Rep h data d) (N : ℕ) {p : ℝ} (e : memSumSq d N = .ok p) : Runs h (hSumSq data N) fun x h' => x = p ∧ h' = h := by
  unfold memSumSq at e
  unfold hSumSq
  refine Runs.ofFold _ (fun t s h' => s = t ∧ h' = h) N e ⟨rfl, rfl⟩ ?_
  rintro i _ t t' s h' ⟨rfl, rfl⟩ e'
  obtain ⟨x, e1, e2⟩ := except_bind e'
  cases e2
  refine Runs.bind (hd.get e1) ?_
  rintro y h'' ⟨rfl, rfl⟩
  exact Runs.pure ⟨rfl, rfl⟩

theorem fill_runs {h : Heap ℝ} {data wk1 wk2 : ℕ} {d a b a' b' : CArr ℝ} (N : ℕ) (hd : Rep h data d) (ha : Rep h wk1 a) (hb : Rep h wk2 b) (h1 : data ≠ wk1) (h2 : data ≠ wk2) (h3 : wk1 ≠ wk2) (e : memFill d N a b = .ok (a', b')) :
    Runs h (hFill data N wk1 wk2) fun _ h' => Rep h' wk1 a' ∧ Rep h' wk2 b' ∧ Only h h' {wk1, wk2} := by
  unfold memFill at e
  obtain ⟨x1, e1, e⟩ := except_bind e
  obtain ⟨a1, e2, e⟩ := except_bind e
  obtain ⟨x2, e3, e⟩ := except_bind e
  obtain ⟨b1, e4, eL⟩ := except_bind e
  unfold hFill
  refine Runs.bind (hd.get e1) ?_
  rintro _ h' ⟨rfl, rfl⟩
  refine Runs.bind (ha.set e2) ?_
  rintro _ h4 ⟨ha4, ho4⟩
  have hd4 := hd.frame ho4 (by simpa using h1)
  have hb4 := hb.frame ho4 (by simpa using h3.symm)
  refine Runs.bind (hd4.get e3) ?_
  rintro _ h5 ⟨rfl, rfl⟩
  refine Runs.bind (hb4.set e4) ?_
  rintro _ h6 ⟨hb6, ho6⟩
  have hd6 := hd4.frame ho6 (by simpa using h2)
  have ha6 := ha4.frame ho6 (by simpa using h3)
  have hoo : Only h' h6 {wk1, wk2} := (ho4.mono (by simp)).trans (ho6.mono (by simp))
  refine Runs.ofFold _ (fun (w : CArr ℝ × CArr ℝ) (_ : Unit) h'' => Rep h'' wk1 w.1 ∧ Rep h'' wk2 w.2 ∧ Only h' h'' {wk1, wk2}) (N - 2) eL ⟨ha6, hb6, hoo⟩ ?_
  rintro i _ w w' _ h7 ⟨hw1, hw2, ho7⟩ e'
  obtain ⟨x, f1, e'⟩ := except_bind e'
  obtain ⟨w1, f2, e'⟩ := except_bind e'
  obtain ⟨y, f3, e'⟩ := except_bind e'
  obtain ⟨w2, f4, e'⟩ := except_bind e'
  cases e'
  have hd7 := hd.frame ho7 (by simp [h1, h2])
  refine Runs.bind (hd7.get f1) ?_
  rintro _ h8 ⟨rfl, rfl⟩
  refine Runs.bind (hw1.set f2) ?_
  rintro _ h9 ⟨hw9, ho9⟩
  refine Runs.bind ((hd7.frame ho9 (by simpa using h1)).get f3) ?_
  rintro _ h10 ⟨rfl, rfl⟩
  refine Runs.mono ((hw2.frame ho9 (by simpa using h3.symm)).set f4) ?_
  rintro _ h11 ⟨hw11, ho11⟩
  exact ⟨hw9.frame ho11 (by simpa using h3), hw11, ho7.trans ((ho9.mono (by simp)).trans (ho11.mono (by simp)))⟩

theorem numDen_runs {h : Heap ℝ} {wk1 wk2 : ℕ} {a b : CArr ℝ} (ha : Rep h wk1 a) (hb : Rep h wk2 b) (n : ℕ) {r : ℝ × ℝ} (e : memNumDen a b n = .ok r) : Runs h (hNumDen wk1 wk2 n) fun x h' => x = r ∧ h' = h := by
  unfold memNumDen at e
  unfold hNumDen
  refine Runs.ofFold _ (fun t s h' => s = t ∧ h' = h) n e ⟨rfl, rfl⟩ ?_
  rintro i _ t t' s h' ⟨rfl, rfl⟩ e'
  obtain ⟨x, e1, e'⟩ := except_bind e'
  obtain ⟨y, e2, e'⟩ := except_bind e'
  cases e'
  refine Runs.bind (ha.get e1) ?_
  rintro _ h'' ⟨rfl, rfl⟩
  refine Runs.bind (hb.get e2) ?_
  rintro _ h''' ⟨rfl, rfl⟩
  exact Runs.pure ⟨rfl, rfl⟩

theorem levinson_runs {h : Heap ℝ} {wkm coef : ℕ} {m c c' : CArr ℝ} (hm : Rep h wkm m) (hc : Rep h coef c) (hne : wkm ≠ coef) (k : ℕ) (e : memLevinson m c k = .ok c') :
    Runs h (hLevinson wkm coef k) fun _ h' => Rep h' coef c' ∧ Only h h' {coef} := by
  unfold memLevinson at e
  unfold hLevinson cFor
  refine Runs.ofFold _ (fun t (_ : Unit) h' => Rep h' coef t ∧ Only h h' {coef}) (k - 1) e ⟨hc, Only.refl _ _⟩ ?_
  rintro i _ t t' _ h' ⟨hr, ho⟩ e'
  obtain ⟨x, e1, e'⟩ := except_bind e'
  obtain ⟨y, e2, e'⟩ := except_bind e'
  obtain ⟨z, e3, e'⟩ := except_bind e'
  have hm' := hm.frame ho (by simpa using hne)
  refine Runs.bind (hm'.get e1) ?_
  rintro _ h'' ⟨rfl, rfl⟩
  refine Runs.bind (hr.get e2) ?_
  rintro _ h''' ⟨rfl, rfl⟩
  refine Runs.bind (hm'.get e3) ?_
  rintro _ h4 ⟨rfl, rfl⟩
  refine Runs.mono (hr.set e') ?_
  rintro _ h5 ⟨hr5, ho5⟩
  exact ⟨hr5, ho.trans ho5⟩

theorem copy_runs {h : Heap ℝ} {wkm coef : ℕ} {m c m' : CArr ℝ} (hm : Rep h wkm m) (hc : Rep h coef c) (hne : wkm ≠ coef) (k : ℕ) (e : memCopy c m k = .ok m') :
    Runs h (hCopy coef wkm k) fun _ h' => Rep h' wkm m' ∧ Only h h' {wkm} := by
  unfold memCopy at e
  unfold hCopy cFor
  refine Runs.ofFold _ (fun t (_ : Unit) h' => Rep h' wkm t ∧ Only h h' {wkm}) k e ⟨hm, Only.refl _ _⟩ ?_
  rintro i _ t t' _ h' ⟨hr, ho⟩ e'
  obtain ⟨x, e1, e'⟩ := except_bind e'
  refine Runs.bind ((hc.frame ho (by simpa using hne.symm)).get e1) ?_
  rintro _ h'' ⟨rfl, rfl⟩
  refine Runs.mono (hr.set e') ?_
  rintro _ h5 ⟨hr5, ho5⟩
  exact ⟨hr5, ho.trans ho5⟩

theorem errors_runs {h : Heap ℝ} {wkm wk1 wk2 : ℕ} {m a b a' b' : CArr ℝ} (hm : Rep h wkm m) (ha : Rep h wk1 a) (hb : Rep h wk2 b) (h1 : wkm ≠ wk1) (h2 : wkm ≠ wk2) (h3 : wk1 ≠ wk2) (k n : ℕ)
    (e : memErrors m k n a b = .ok (a', b')) : Runs h (hErrors wkm k n wk1 wk2) fun _ h' => Rep h' wk1 a' ∧ Rep h' wk2 b' ∧ Only h h' {wk1, wk2} := by
  unfold memErrors at e
  unfold hErrors cFor
  refine Runs.ofFold _ (fun (w : CArr ℝ × CArr ℝ) (_ : Unit) h'' => Rep h'' wk1 w.1 ∧ Rep h'' wk2 w.2 ∧ Only h h'' {wk1, wk2}) n e ⟨ha, hb, Only.refl _ _⟩ ?_
  rintro i _ w w' _ h7 ⟨hw1, hw2, ho7⟩ e'
  obtain ⟨x1, f1, e'⟩ := except_bind e'
  obtain ⟨x2, f2, e'⟩ := except_bind e'
  obtain ⟨x3, f3, e'⟩ := except_bind e'
  obtain ⟨w1, f4, e'⟩ := except_bind e'
  obtain ⟨x5, f5, e'⟩ := except_bind e'
  obtain ⟨x6, f6, e'⟩ := except_bind e'
  obtain ⟨x7, f7, e'⟩ := except_bind e'
  obtain ⟨w2, f8, e'⟩ := except_bind e'
  cases e'
  have hm7 := hm.frame ho7 (by simp [h1, h2])
  refine Runs.bind (hw1.get f1) ?_
  rintro _ h8 ⟨rfl, rfl⟩
  refine Runs.bind (hm7.get f2) ?_
  rintro _ h9 ⟨rfl, rfl⟩
  refine Runs.bind (hw2.get f3) ?_
  rintro _ h10 ⟨rfl, rfl⟩
  refine Runs.bind (hw1.set f4) ?_
  rintro _ h11 ⟨hw11, ho11⟩
  have hw2' := hw2.frame ho11 (by simpa using h3.symm)
  have hm11 := hm7.frame ho11 (by simpa using h1)
  refine Runs.bind (hw2'.get f5) ?_
  rintro _ h12 ⟨rfl, rfl⟩
  refine Runs.bind (hm11.get f6) ?_
  rintro _ h13 ⟨rfl, rfl⟩
  refine Runs.bind (hw11.get f7) ?_
  rintro _ h14 ⟨rfl, rfl⟩
  refine Runs.mono (hw2'.set f8) ?_
  rintro _ h15 ⟨hw15, ho15⟩
  exact ⟨hw11.frame ho15 (by simpa using h3), hw15, ho7.trans ((ho11.mono (by simp)).trans (ho15.mono (by simp)))⟩

/-- The loop over the coefficients. If it is not left early all orders are below the number of data; if it is left early the discrepancy is zero. -/
theorem memLoop_runs (N M : ℕ) {wk1 wk2 wkm coef : ℕ} (d1 : wk1 ≠ wk2) (d2 : wk1 ≠ wkm) (d3 : wk1 ≠ coef) (d4 : wk2 ≠ wkm) (d5 : wk2 ≠ coef) (d6 : wkm ≠ coef) (ks : List ℕ) :
    ∀ {h : Heap ℝ} {s : MemState} {r : ℝ × CArr ℝ}, Rep h wk1 s.wk1 → Rep h wk2 s.wk2 → Rep h wkm s.wkm → Rep h coef s.coef → memLoop N M ks s = .ok r →
    Runs h (hMemLoop N M wk1 wk2 wkm coef ks s.msd) fun x h' => x.2 = r.1 ∧ Rep h' coef r.2 ∧ Only h h' {wk1, wk2, wkm, coef} ∧ (x.1 = true → r.1 = 0) ∧ (x.1 = false → ∀ k ∈ ks, k < N) ∧
      (∃ a, Rep h' wk1 a ∧ a.size = s.wk1.size) ∧ (∃ a, Rep h' wk2 a ∧ a.size = s.wk2.size) ∧ (∃ a, Rep h' wkm a ∧ a.size = s.wkm.size) := by
  have szfold : ∀ {τ : Type} (f : τ → ℕ → Except CErr τ) (sz : τ → ℕ × ℕ) (hf : ∀ t i t', f t i = .ok t' → sz t' = sz t) (l : List ℕ) (t z : τ), l.foldlM f t = .ok z → sz z = sz t := by
    intro τ f sz hf l
    induction l with
    | nil => intro t z e; cases e; rfl
    | cons i l ih =>
      intro t z e
      rw [List.foldlM_cons] at e
      obtain ⟨y, e1, e2⟩ := except_bind e
      rw [ih y z e2, hf t i y e1]
  induction ks with
  | nil =>
    intro h s r h1 h2 h3 h4 e
    cases e
    exact Runs.pure ⟨rfl, h4, Only.refl _ _, by simp, by simp, ⟨_, h1, rfl⟩, ⟨_, h2, rfl⟩, ⟨_, h3, rfl⟩⟩
  | cons k ks ih =>
    intro h s r h1 h2 h3 h4 e
    unfold memLoop at e
    obtain ⟨nd, e1, e⟩ := except_bind e
    unfold hMemLoop
    refine Runs.bind (numDen_runs h1 h2 (N - k) e1) ?_
    rintro nd' h' ⟨end', rfl⟩
    subst nd'
    by_cases hsmall : |nd.2| < 1e-6
    · rw [if_pos hsmall] at e
      rw [if_pos hsmall]
      cases e
      exact Runs.pure ⟨rfl, h4, Only.refl _ _, fun _ => rfl, by simp, ⟨_, h1, rfl⟩, ⟨_, h2, rfl⟩, ⟨_, h3, rfl⟩⟩
    · rw [if_neg hsmall] at e
      rw [if_neg hsmall]
      have hkN : k < N := by
        by_contra hcon
        rw [show N - k = 0 by omega] at e1
        cases e1
        apply hsmall
        norm_num
      obtain ⟨c1, f1, e⟩ := except_bind e
      obtain ⟨x, f2, e⟩ := except_bind e
      obtain ⟨c2, f3, eL⟩ := except_bind e
      refine Runs.bind (h4.set f1) ?_
      rintro _ h5 ⟨hc5, ho5⟩
      refine Runs.bind (hc5.get f2) ?_
      rintro _ h6 ⟨rfl, rfl⟩
      refine Runs.bind (levinson_runs (h3.frame ho5 (by simpa using d6)) hc5 d6 k f3) ?_
      rintro _ h7 ⟨hc7, ho7⟩
      have ho : Only h' h7 {coef} := ho5.trans ho7
      have h17 := h1.frame ho (by simpa using d3)
      have h27 := h2.frame ho (by simpa using d5)
      have h37 := h3.frame ho (by simpa using d6)
      by_cases hkM : k = M
      · rw [if_pos hkM] at eL ⊢
        refine Runs.mono (ih (s := { s with coef := c2, msd := s.msd * (1 - _ ^ 2) }) h17 h27 h37 hc7 eL) ?_
        rintro x h8 ⟨r1, r2, r3, r4, r5, r6⟩
        exact ⟨r1, r2, (ho.mono (by simp)).trans r3, r4, fun hx => by simpa using ⟨hkN, r5 hx⟩, r6⟩
      · rw [if_neg hkM] at eL ⊢
        obtain ⟨m', f4, eM⟩ := except_bind eL
        obtain ⟨w, f5, eN⟩ := except_bind eM
        refine Runs.bind (copy_runs h37 hc7 d6 k f4) ?_
        rintro _ h8 ⟨hm8, ho8⟩
        refine Runs.bind (errors_runs hm8 (h17.frame ho8 (by simpa using d2)) (h27.frame ho8 (by simpa using d4)) d2.symm d4.symm d1 k (N - k - 1) f5) ?_
        rintro _ h9 ⟨ha9, hb9, ho9⟩
        have hs1 : m'.size = s.wkm.size := by
          have := szfold _ (fun t : CArr ℝ => (t.size, 0)) (fun t i t' e' => by
            obtain ⟨x, g1, g2⟩ := except_bind e'
            rw [(carr_set g2).2]) _ _ _ f4
          simpa using this
        have hs2 : w.1.size = s.wk1.size ∧ w.2.size = s.wk2.size := by
          have := szfold _ (fun t : CArr ℝ × CArr ℝ => (t.1.size, t.2.size)) (fun t i t' e' => by
            obtain ⟨x1, f1, e'⟩ := except_bind e'
            obtain ⟨x2, f2, e'⟩ := except_bind e'
            obtain ⟨x3, f3, e'⟩ := except_bind e'
            obtain ⟨w1, f4, e'⟩ := except_bind e'
            obtain ⟨x5, f5, e'⟩ := except_bind e'
            obtain ⟨x6, f6, e'⟩ := except_bind e'
            obtain ⟨x7, f7, e'⟩ := except_bind e'
            obtain ⟨w2, f8, e'⟩ := except_bind e'
            cases e'
            rw [(carr_set f4).2, (carr_set f8).2]) _ _ _ f5
          simpa using this
        refine Runs.mono (ih (s := { wk1 := w.1, wk2 := w.2, wkm := m', coef := c2, msd := s.msd * (1 - _ ^ 2) }) ha9 hb9 (hm8.frame ho9 (by simp [d2.symm, d4.symm]))
          ((hc7.frame ho8 (by simpa using d6.symm)).frame ho9 (by simp [d3.symm, d5.symm])) eN) ?_
        rintro x h10 ⟨r1, r2, r3, r4, r5, ⟨a1, r6, r6'⟩, ⟨a2, r7, r7'⟩, ⟨a3, r8, r8'⟩⟩
        refine ⟨r1, r2, (ho.mono (by simp)).trans ((ho8.mono (by simp)).trans ((ho9.mono ?_).trans r3)), r4, fun hx => by simpa using ⟨hkN, r5 hx⟩, ⟨a1, r6, r6'.trans hs2.1⟩, ⟨a2, r7, r7'.trans hs2.2⟩, ⟨a3, r8, r8'.trans hs1⟩⟩
        intro b
        simp only [Finset.mem_insert, Finset.mem_singleton]
        tauto

theorem fill_sizes {d a b a' b' : CArr ℝ} {N : ℕ} (e : memFill d N a b = .ok (a', b')) : a'.size = a.size ∧ b'.size = b.size := by
  unfold memFill at e
  obtain ⟨x1, e1, e⟩ := except_bind e
  obtain ⟨a1, e2, e⟩ := except_bind e
  obtain ⟨x2, e3, e⟩ := except_bind e
  obtain ⟨b1, e4, e⟩ := except_bind e
  have key : ∀ (l : List ℕ) (w z : CArr ℝ × CArr ℝ), l.foldlM (fun (w : CArr ℝ × CArr ℝ) j => do
      let w1 ← w.1.set (j + 2) (← d.get (j + 2))
      let w2 ← w.2.set (j + 1) (← d.get (j + 2))
      return (w1, w2)) w = Except.ok z → z.1.size = w.1.size ∧ z.2.size = w.2.size := by
    intro l
    induction l with
    | nil => intro w z e; cases e; exact ⟨rfl, rfl⟩
    | cons j l ih =>
      intro w z e
      rw [List.foldlM_cons] at e
      obtain ⟨y, g1, g2⟩ := except_bind e
      obtain ⟨x, f1, g1⟩ := except_bind g1
      obtain ⟨w1, f2, g1⟩ := except_bind g1
      obtain ⟨y', f3, g1⟩ := except_bind g1
      obtain ⟨w2, f4, g1⟩ := except_bind g1
      cases g1
      have := ih _ _ g2
      rw [(carr_set f2).2, (carr_set f4).2] at this
      exact this
  have := key _ _ _ e
  rw [(carr_set e2).2, (carr_set e4).2] at this
  exact this

theorem getCoefficients_runs {h : Heap ℝ} (hw : h.WF) (junk : ℕ → ℕ → ℝ) {data coef : ℕ} (N M : ℕ) {d c c' : CArr ℝ} {r : ℝ} (hd : Rep h data d) (hc : Rep h coef c) (hne : data ≠ coef) (hdn : data < h.next) (hcn : coef < h.next)
    (e : getCoefficients junk d N M c = .ok (r, c')) :
    Runs h (hGetCoefficients junk data N M coef) fun x h' => ∃ early : Bool, x = r ∧ h'.WF ∧ h'.next = h.next + 3 ∧ Rep h' coef c' ∧ (∀ b < h.next, b ≠ coef → h'.live b = h.live b) ∧ (early = true → r = 0) ∧ (early = false → ∀ k, 0 < k → k ≤ M → k < N) ∧
      if early then h'.sizeOf h.next = N ∧ h'.sizeOf (h.next + 1) = N ∧ h'.sizeOf (h.next + 2) = M ∧ ∀ i < 3, h'.live (h.next + i) ≠ none else ∀ i < 3, h'.live (h.next + i) = none := by
  unfold getCoefficients at e
  obtain ⟨p, e1, e⟩ := except_bind e
  obtain ⟨w, e2, eL⟩ := except_bind e
  have hsz := fill_sizes e2
  unfold hGetCoefficients mallocJunk
  refine Runs.bind (R := fun V h' => V = h.next ∧ h' = { next := h.next + 1, live := Function.update h.live h.next (some ⟨N, fun w => some (.num (junk 0 w))⟩) }) (Runs.newArray ⟨rfl, rfl⟩) ?_
  rintro W1 h1 ⟨hW1, g1⟩
  refine Runs.bind (R := fun V h' => V = h1.next ∧ h' = { next := h1.next + 1, live := Function.update h1.live h1.next (some ⟨N, fun w => some (.num (junk 1 w))⟩) }) (Runs.newArray ⟨rfl, rfl⟩) ?_
  rintro W2 h2 ⟨hW2, g2⟩
  refine Runs.bind (R := fun V h' => V = h2.next ∧ h' = { next := h2.next + 1, live := Function.update h2.live h2.next (some ⟨M, fun w => some (.num (junk 2 w))⟩) }) (Runs.newArray ⟨rfl, rfl⟩) ?_
  rintro WM h3 ⟨hWM, g3⟩
  have n1 : h1.next = h.next + 1 := by rw [g1]
  have n2 : h2.next = h.next + 2 := by rw [g2]; simp only; omega
  have n3 : h3.next = h.next + 3 := by rw [g3]; simp only; omega
  have l3 : ∀ x, h3.live x = if x = WM then some ⟨M, fun w => some (.num (junk 2 w))⟩ else if x = W2 then some ⟨N, fun w => some (.num (junk 1 w))⟩ else
      if x = W1 then some ⟨N, fun w => some (.num (junk 0 w))⟩ else h.live x := by
    intro x
    rw [g3, g2, g1, hWM, hW2, hW1, g2, g1]
    simp only [Function.update_apply]
  have rd3 : Rep h3 data d := by unfold Rep; rw [l3, if_neg (by omega), if_neg (by omega), if_neg (by omega)]; exact hd
  have rc3 : Rep h3 coef c := by unfold Rep; rw [l3, if_neg (by omega), if_neg (by omega), if_neg (by omega)]; exact hc
  have r13 : Rep h3 W1 ⟨N, junk 0⟩ := by unfold Rep; rw [l3, if_neg (by omega), if_neg (by omega), if_pos rfl]
  have r23 : Rep h3 W2 ⟨N, junk 1⟩ := by unfold Rep; rw [l3, if_neg (by omega), if_pos rfl]
  have rm3 : Rep h3 WM ⟨M, junk 2⟩ := by unfold Rep; rw [l3, if_pos rfl]
  refine Runs.bind (sumSq_runs rd3 N e1) ?_
  rintro p' h4 ⟨e0, e4⟩
  subst p' h4
  refine Runs.bind (fill_runs N rd3 r13 r23 (by omega) (by omega) (by omega) e2) ?_
  rintro _ h5 ⟨r15, r25, o5⟩
  refine Runs.bind (memLoop_runs N M (by omega) (by omega) (by omega) (by omega) (by omega) (by omega) _ (s := { wk1 := w.1, wk2 := w.2, wkm := ⟨M, junk 2⟩, coef := c, msd := p / N }) r15 r25
    (rm3.frame o5 (by simp only [Finset.mem_insert, Finset.mem_singleton]; omega)) (rc3.frame o5 (by simp only [Finset.mem_insert, Finset.mem_singleton]; omega)) eL) ?_
  rintro x h6 ⟨q1, q2, q3, q4, q5, ⟨a1, q6, q6'⟩, ⟨a2, q7, q7'⟩, ⟨a3, q8, q8'⟩⟩
  have hoff : ∀ b, b ≠ W1 → b ≠ W2 → b ≠ WM → b ≠ coef → h6.live b = h.live b := by
    intro b b1 b2 b3 b4
    rw [q3.2 b (by simp [b1, b2, b3, b4]), o5.2 b (by simp [b1, b2]), l3, if_neg b3, if_neg b2, if_neg b1]
  have n6 : h6.next = h.next + 3 := by rw [q3.1, o5.1, n3]
  have s1 : a1.size = N := by rw [q6']; exact hsz.1
  have s2 : a2.size = N := by rw [q7']; exact hsz.2
  have s3 : a3.size = M := q8'
  cases hx : x.1 with
  | true =>
    rw [if_pos rfl]
    refine Runs.pure ⟨true, q1, fun b hb => ?_, n6, q2, fun b hb hbc => hoff b (by omega) (by omega) (by omega) hbc, fun _ => q4 hx, by simp, ?_⟩
    · rw [hoff b (by omega) (by omega) (by omega) (by omega)]
      exact hw b (by omega)
    · rw [if_pos rfl]
      rw [show h.next + 2 = WM by omega, show h.next + 1 = W2 by omega, ← hW1]
      unfold Heap.sizeOf
      rw [q6, q7, q8]
      refine ⟨s1, s2, s3, fun i hi => ?_⟩
      obtain rfl | rfl | rfl : i = 0 ∨ i = 1 ∨ i = 2 := by omega
      · rw [Nat.add_zero, q6]; simp
      · rw [show W1 + 1 = W2 by omega, q7]; simp
      · rw [show W1 + 2 = WM by omega, q8]; simp
  | false =>
    rw [if_neg (by simp)]
    refine Runs.bind (Runs.hfree q6 (Q := fun _ h' => h' = { h6 with live := Function.update h6.live W1 none }) rfl) ?_
    rintro _ h7 e7
    refine Runs.bind (Runs.hfree (B := _) (by rw [e7]; simp only [Function.update_of_ne (show W2 ≠ W1 by omega)]; exact q7) (Q := fun _ h' => h' = { h7 with live := Function.update h7.live W2 none }) rfl) ?_
    rintro _ h8 e8
    refine Runs.bind (Runs.hfree (B := _) (by rw [e8, e7]; simp only [Function.update_of_ne (show WM ≠ W1 by omega), Function.update_of_ne (show WM ≠ W2 by omega)]; exact q8) (Q := fun _ h' => h' = { h8 with live := Function.update h8.live WM none }) rfl) ?_
    rintro _ h9 e9
    have l9 : ∀ b, h9.live b = if b = WM then none else if b = W2 then none else if b = W1 then none else h6.live b := by
      intro b
      rw [e9, e8, e7]
      simp only [Function.update_apply]
    have n9 : h9.next = h.next + 3 := by rw [e9, e8, e7]; exact n6
    refine Runs.pure ⟨false, q1, fun b hb => ?_, n9, ?_, fun b hb hbc => ?_, by simp, fun _ k hk hkM => q5 hx k ?_, ?_⟩
    · rw [l9, if_neg (by omega), if_neg (by omega), if_neg (by omega), hoff b (by omega) (by omega) (by omega) (by omega)]
      exact hw b (by omega)
    · unfold Rep
      rw [l9, if_neg (by omega), if_neg (by omega), if_neg (by omega)]
      exact q2
    · rw [l9, if_neg (by omega), if_neg (by omega), if_neg (by omega)]
      exact hoff b (by omega) (by omega) (by omega) hbc
    · simp only [List.mem_map, List.mem_range]
      exact ⟨k - 1, by omega, by omega⟩
    · rw [if_neg (by simp)]
      intro i hi
      rw [l9]
      by_cases i0 : h.next + i = WM
      · rw [if_pos i0]
      · rw [if_neg i0]
        by_cases i1 : h.next + i = W2
        · rw [if_pos i1]
        · rw [if_neg i1, if_pos (by omega)]

theorem frequencyEvaluation_runs {h : Heap ℝ} {coef : ℕ} {c : CArr ℝ} (hc : Rep h coef c) (δ : ℝ) (M : ℕ) (msd : ℝ) {y : ℝ} (e : frequencyEvaluation δ c M msd = .ok y) :
    Runs h (hFrequencyEvaluation δ coef M msd) fun x h' => x = y ∧ h' = h := by
  unfold frequencyEvaluation at e
  unfold hFrequencyEvaluation
  obtain ⟨s, e1, e2⟩ := except_bind e
  cases e2
  refine Runs.bind (Runs.ofFold _ (fun t s h' => s = t ∧ h' = h) M e1 ⟨rfl, rfl⟩ ?_) ?_
  · rintro i _ t t' s h' ⟨rfl, rfl⟩ e'
    obtain ⟨x, e3, e4⟩ := except_bind e'
    cases e4
    refine Runs.bind (hc.get e3) ?_
    rintro y h'' ⟨rfl, rfl⟩
    exact Runs.pure ⟨rfl, rfl⟩
  · rintro x h' ⟨rfl, rfl⟩
    exact Runs.pure ⟨rfl, rfl⟩

theorem mapM_getD {f : ℝ → Except CErr ℝ} : ∀ {l r : List ℝ}, l.mapM f = .ok r → r.length = l.length ∧ ∀ i < l.length, f (l.getD i 0) = .ok (r.getD i 0) := by
  intro l
  induction l with
  | nil => intro r e; cases e; simp
  | cons x l ih =>
    intro r e
    rw [List.mapM_cons] at e
    obtain ⟨y, e1, e⟩ := except_bind e
    obtain ⟨ys, e2, e⟩ := except_bind e
    cases e
    have := ih e2
    refine ⟨by simp [this.1], fun i hi => ?_⟩
    cases i with
    | zero => simpa using e1
    | succ i => simpa using this.2 i (by simpa using hi)

/-- The contents of the result while the loop is at frequency `k`. -/
def PartRes (h0 h : Heap ℝ) (R F k : ℕ) (ps : List ℝ) : Prop :=
  (∃ cells, h.live R = some ⟨F, cells⟩ ∧ ∀ i < k, cells i = some (.num (ps.getD i 0))) ∧ Only h0 h {R}

theorem addTerm_runs {h : Heap ℝ} {R i F coef M : ℕ} {δ msd x y : ℝ} {cells : ℕ → Option (Word ℝ)} {c : CArr ℝ} (hc : Rep h coef c) (hne : coef ≠ R) (hR : h.live R = some ⟨F, cells⟩) (hi : i < F) (hx : cells i = some (.num x))
    (e : (if msd ≠ 0 then frequencyEvaluation δ c M msd else .ok 0) = .ok y) :
    Runs h (hAddTerm R i δ coef M msd) fun _ h' => (∃ cells', h'.live R = some ⟨F, cells'⟩ ∧ cells' i = some (.num (x + y)) ∧ ∀ j, j ≠ i → cells' j = cells j) ∧ Only h h' {R} := by
  unfold hAddTerm
  by_cases hm : msd ≠ 0
  · rw [if_pos hm] at e ⊢
    refine Runs.bind (frequencyEvaluation_runs hc δ M msd e) ?_
    rintro a h' ⟨rfl, rfl⟩
    refine Runs.bind (R := fun z h'' => z = x ∧ h'' = h') (Runs.getNum hR hi hx ⟨rfl, rfl⟩) ?_
    rintro z h'' ⟨rfl, rfl⟩
    refine Runs.hwrite hR hi ⟨⟨Function.update cells i (some (.num (z + a))), by simp only [Function.update_self], by simp only [Function.update_self], fun j hj => by simp only [Function.update_of_ne hj]⟩, rfl, fun b hb => ?_⟩
    simp only [Finset.mem_singleton] at hb
    simp only [Function.update_of_ne hb]
  · rw [if_neg hm] at e ⊢
    cases e
    exact Runs.pure ⟨⟨cells, hR, by rw [add_zero]; exact hx, fun _ _ => rfl⟩, Only.refl _ _⟩

set_option maxHeartbeats 2000000 in
/-- **C117** (maximum entropy method): in any memory, for any frequencies, any velocity of at least two steps and any number of coefficients, `mem` (with one readable word behind its arrays, see C30) stays inside its arrays; the result is that
of the functional model `mem` (C29); nothing from before the call changes. After the call it holds the copy of the imaginary part, and the three work arrays of each of the two fits that was left early (`er`, `ei`: always if there are at least as many
coefficients as steps, never if the discrepancy of the fit is not zero). -/
theorem C117_mem {h : Heap ℝ} (hw : h.WF) (slack : ℕ) (hs : 1 ≤ slack) (junk : ℕ → ℕ → ℕ → ℝ) (freqs : List ℝ) (v : List ℂ) (hv : 2 ≤ v.length) (dt : ℝ) (M : ℕ) :
    ∃ R h' ps, hMem slack junk freqs v dt M h = .ok (R, h') ∧ mem slack junk freqs v dt M = .ok ps ∧ h.live R = none ∧ (∀ b, h.live b ≠ none → h'.live b = h.live b) ∧
      (∃ cells, h'.live R = some ⟨freqs.length, cells⟩ ∧ ∀ i < freqs.length, cells i = some (.num (ps.getD i 0))) ∧
      ∃ er ei : Bool, (v.length ≤ M → er = true ∧ ei = true) ∧ ((er = true ∧ ei = true) → ∀ p ∈ ps, p = 0) ∧
        ∃ L : Finset ℕ, (∀ b, b ∈ L ↔ b ≠ R ∧ h.live b = none ∧ h'.live b ≠ none) ∧ L.card = 1 + 3 * (er.toNat + ei.toNat) ∧
          ∑ b ∈ L, h'.sizeOf b = v.length + slack + (er.toNat + ei.toNat) * (2 * v.length + M) := by
  set N := v.length with hN
  set dr : CArr ℝ := ⟨N + slack, fun i => if i < N then (v.getD i 0).re else junk 0 3 i⟩ with hdr
  set di : CArr ℝ := ⟨N + slack, fun i => if i < N then (v.getD i 0).im else junk 1 3 i⟩ with hdi
  obtain ⟨r, cr, hcr, -, -⟩ := getCoefficients_ok (junk 0) dr ⟨M + 1, junk 0 4⟩ N M hv (by rw [hdr]; simp only; omega) rfl
  obtain ⟨q, ci, hci, -, -⟩ := getCoefficients_ok (junk 1) di ⟨M + 1, junk 1 4⟩ N M hv (by rw [hdi]; simp only; omega) rfl
  obtain ⟨ps, hps⟩ : ∃ ps, mem slack junk freqs v dt M = .ok ps := by
    obtain ⟨_, _, _, _, -, -, -, -, hh⟩ := mem_ok slack hs junk freqs v hv dt M
    exact ⟨_, hh⟩
  have hmem : (freqs.mapM fun f => (if r ≠ 0 then frequencyEvaluation (f * 2 * Real.pi * dt) cr M r else .ok 0) >>= fun a =>
      (if q ≠ 0 then frequencyEvaluation (f * 2 * Real.pi * dt) ci M q else .ok 0) >>= fun b => Except.ok ((0 + a + b) * dt)) = Except.ok ps := by
    rw [← hps]
    unfold mem
    simp only [← hN]
    rw [← hdr, ← hdi, hcr, hci]
    change _ = freqs.mapM _
    congr 1
    funext f
    by_cases hr : r = 0 <;> by_cases hq : q = 0 <;> simp only [hr, hq, ne_eq, not_true_eq_false, not_false_eq_true, if_true, if_false] <;> rfl
  obtain ⟨hlen, hval⟩ := mapM_getD hmem
  suffices hsuf : Runs h (hMem slack junk freqs v dt M) fun R h' => R = h.next + 2 ∧ (∃ cells, h'.live (h.next + 2) = some ⟨freqs.length, cells⟩ ∧ ∀ i < freqs.length, cells i = some (.num (ps.getD i 0))) ∧
      h'.sizeOf (h.next + 6) = N + slack ∧ h'.live (h.next + 6) ≠ none ∧ (∀ b < h.next, h'.live b = h.live b) ∧ (∀ b, h.next + 13 ≤ b → h'.live b = none) ∧ h'.live h.next = none ∧ h'.live (h.next + 1) = none ∧ h'.live (h.next + 3) = none ∧
      h'.live (h.next + 4) = none ∧ h'.live (h.next + 5) = none ∧
      ∃ er ei : Bool, (er = true → r = 0) ∧ (ei = true → q = 0) ∧ (er = false → ∀ k, 0 < k → k ≤ M → k < N) ∧ (ei = false → ∀ k, 0 < k → k ≤ M → k < N) ∧
        (if er then h'.sizeOf (h.next + 7) = N ∧ h'.sizeOf (h.next + 8) = N ∧ h'.sizeOf (h.next + 9) = M ∧ ∀ i < 3, h'.live (h.next + 7 + i) ≠ none else ∀ i < 3, h'.live (h.next + 7 + i) = none) ∧
        (if ei then h'.sizeOf (h.next + 10) = N ∧ h'.sizeOf (h.next + 11) = N ∧ h'.sizeOf (h.next + 12) = M ∧ ∀ i < 3, h'.live (h.next + 10 + i) ≠ none else ∀ i < 3, h'.live (h.next + 10 + i) = none) by
    obtain ⟨R, h', e, rfl, hc, s6, l6, lold, lnew, l0, l1, l3, l4, l5, er, ei, er0, ei0, erM, eiM, her, hei⟩ := hsuf
    refine ⟨h.next + 2, h', ps, e, hps, hw _ (by omega), fun b hb => ?_, hc, er, ei, fun hM => ⟨?_, ?_⟩, ?_, ?_⟩
    · apply lold
      by_contra hcon
      exact hb (hw b (by omega))
    · by_contra hcon
      have := erM (by simpa using hcon) N (by omega) hM
      omega
    · by_contra hcon
      have := eiM (by simpa using hcon) N (by omega) hM
      omega
    · rintro ⟨h1, h2⟩ p hp
      obtain ⟨i, hi, rfl⟩ := List.getElem_of_mem hp
      have := hval i (by omega)
      simp only [er0 h1, ei0 h2, ne_eq, not_true_eq_false, if_false] at this
      rw [List.getD_eq_getElem?_getD, List.getElem?_eq_getElem hi] at this
      have h3 : (0 + 0 + 0) * dt = ps[i] := by
        simpa using Except.ok.inj this
      rw [← h3]; ring
    · have c3 : ∀ a : ℕ, ({a, a + 1, a + 2} : Finset ℕ).card = 3 := fun a => by
        rw [Finset.card_insert_of_notMem (by simp), Finset.card_pair (by omega)]
      have s3 : ∀ (a : ℕ) (g : ℕ → ℕ), ∑ b ∈ ({a, a + 1, a + 2} : Finset ℕ), g b = g a + g (a + 1) + g (a + 2) := fun a g => by
        rw [Finset.sum_insert (by simp), Finset.sum_pair (by omega), add_assoc]
      have blk : ∀ (a b : ℕ), b ∈ ({a, a + 1, a + 2} : Finset ℕ) ↔ ∃ i < 3, b = a + i := fun a b => by
        simp only [Finset.mem_insert, Finset.mem_singleton]
        constructor
        · rintro (rfl | rfl | rfl)
          · exact ⟨0, by omega, rfl⟩
          · exact ⟨1, by omega, rfl⟩
          · exact ⟨2, by omega, rfl⟩
        · rintro ⟨i, hi, rfl⟩; omega
      set A : Finset ℕ := if er then {h.next + 7, h.next + 7 + 1, h.next + 7 + 2} else ∅ with hA
      set B : Finset ℕ := if ei then {h.next + 10, h.next + 10 + 1, h.next + 10 + 2} else ∅ with hB
      have hAm : ∀ b, b ∈ A ↔ ∃ i < 3, b = h.next + 7 + i ∧ h'.live b ≠ none := by
        intro b
        rw [hA]
        cases er with
        | true =>
          rw [if_pos rfl] at her ⊢
          rw [blk]
          exact ⟨fun ⟨i, hi, hb⟩ => ⟨i, hi, hb, hb ▸ her.2.2.2 i hi⟩, fun ⟨i, hi, hb, _⟩ => ⟨i, hi, hb⟩⟩
        | false =>
          rw [if_neg (by simp)] at her ⊢
          simp only [Finset.notMem_empty, false_iff]
          rintro ⟨i, hi, rfl, hl⟩
          exact hl (her i hi)
      have hBm : ∀ b, b ∈ B ↔ ∃ i < 3, b = h.next + 10 + i ∧ h'.live b ≠ none := by
        intro b
        rw [hB]
        cases ei with
        | true =>
          rw [if_pos rfl] at hei ⊢
          rw [blk]
          exact ⟨fun ⟨i, hi, hb⟩ => ⟨i, hi, hb, hb ▸ hei.2.2.2 i hi⟩, fun ⟨i, hi, hb, _⟩ => ⟨i, hi, hb⟩⟩
        | false =>
          rw [if_neg (by simp)] at hei ⊢
          simp only [Finset.notMem_empty, false_iff]
          rintro ⟨i, hi, rfl, hl⟩
          exact hl (hei i hi)
      have hAc : A.card = 3 * er.toNat ∧ ∑ b ∈ A, h'.sizeOf b = er.toNat * (2 * N + M) := by
        rw [hA]
        cases er with
        | true =>
          rw [if_pos rfl] at her ⊢
          rw [c3, s3]
          rw [show h.next + 7 + 1 = h.next + 8 by omega, show h.next + 7 + 2 = h.next + 9 by omega, her.1, her.2.1, her.2.2.1]
          exact ⟨rfl, by simp only [Bool.toNat_true]; ring⟩
        | false => simp
      have hBc : B.card = 3 * ei.toNat ∧ ∑ b ∈ B, h'.sizeOf b = ei.toNat * (2 * N + M) := by
        rw [hB]
        cases ei with
        | true =>
          rw [if_pos rfl] at hei ⊢
          rw [c3, s3]
          rw [show h.next + 10 + 1 = h.next + 11 by omega, show h.next + 10 + 2 = h.next + 12 by omega, hei.1, hei.2.1, hei.2.2.1]
          exact ⟨rfl, by simp only [Bool.toNat_true]; ring⟩
        | false => simp
      have hAB : Disjoint A B := Finset.disjoint_left.2 fun b h1 h2 => by
        obtain ⟨i, hi, h1, -⟩ := (hAm b).1 h1
        obtain ⟨j, hj, h2, -⟩ := (hBm b).1 h2
        omega
      have h6 : h.next + 6 ∉ A ∪ B := by
        rw [Finset.mem_union, hAm, hBm]
        rintro (⟨i, hi, h1, -⟩ | ⟨i, hi, h1, -⟩) <;> omega
      refine ⟨insert (h.next + 6) (A ∪ B), fun b => ?_, ?_, ?_⟩
      · rw [Finset.mem_insert, Finset.mem_union, hAm, hBm]
        constructor
        · rintro (rfl | ⟨i, hi, rfl, hl⟩ | ⟨i, hi, rfl, hl⟩)
          · exact ⟨by omega, hw _ (by omega), l6⟩
          · exact ⟨by omega, hw _ (by omega), hl⟩
          · exact ⟨by omega, hw _ (by omega), hl⟩
        · rintro ⟨b1, b2, b3⟩
          by_cases hlt : b < h.next
          · exact absurd ((lold b hlt).trans b2) b3
          by_cases hge : h.next + 13 ≤ b
          · exact absurd (lnew b hge) b3
          have h0 : b ≠ h.next := by rintro rfl; exact b3 l0
          have h1 : b ≠ h.next + 1 := by rintro rfl; exact b3 l1
          have h3 : b ≠ h.next + 3 := by rintro rfl; exact b3 l3
          have h4 : b ≠ h.next + 4 := by rintro rfl; exact b3 l4
          have h5 : b ≠ h.next + 5 := by rintro rfl; exact b3 l5
          by_cases h6 : b = h.next + 6
          · exact Or.inl h6
          by_cases h9 : b ≤ h.next + 9
          · exact Or.inr (Or.inl ⟨b - (h.next + 7), by omega, by omega, b3⟩)
          · exact Or.inr (Or.inr ⟨b - (h.next + 10), by omega, by omega, b3⟩)
      · rw [Finset.card_insert_of_notMem h6, Finset.card_union_of_disjoint hAB, hAc.1, hBc.1]; ring
      · rw [Finset.sum_insert h6, Finset.sum_union hAB, hAc.2, hBc.2, s6]; ring
  unfold hMem mallocJunk
  refine Runs.bind (R := fun V h' => V = h.next ∧ h' = { next := h.next + 1, live := Function.update h.live h.next (some ⟨2 * N, fun w => some (.num (complexWord v w))⟩) }) (Runs.newArray ⟨rfl, rfl⟩) ?_
  rintro V h1 ⟨hV, g1⟩
  refine Runs.bind (R := fun F h' => F = h1.next ∧ h' = { next := h1.next + 1, live := Function.update h1.live h1.next (some ⟨freqs.length, fun i => some (.num (freqs.getD i 0))⟩) }) (Runs.newArray ⟨rfl, rfl⟩) ?_
  rintro F h2 ⟨hF, g2⟩
  refine Runs.bind (R := fun R h' => R = h2.next ∧ h' = { next := h2.next + 1, live := Function.update h2.live h2.next (some ⟨freqs.length, fun _ => none⟩) }) (Runs.malloc ⟨rfl, rfl⟩) ?_
  rintro R h3 ⟨hR, g3⟩
  refine Runs.bind (R := fun A h' => A = h3.next ∧ h' = { next := h3.next + 1, live := Function.update h3.live h3.next (some ⟨M + 1, fun i => some (.num (junk 0 4 i))⟩) }) (Runs.newArray ⟨rfl, rfl⟩) ?_
  rintro CR h4 ⟨hCR, g4⟩
  refine Runs.bind (R := fun A h' => A = h4.next ∧ h' = { next := h4.next + 1, live := Function.update h4.live h4.next (some ⟨M + 1, fun i => some (.num (junk 1 4 i))⟩) }) (Runs.newArray ⟨rfl, rfl⟩) ?_
  rintro CI h5 ⟨hCI, g5⟩
  refine Runs.bind (R := fun A h' => A = h5.next ∧ h' = { next := h5.next + 1, live := Function.update h5.live h5.next (some ⟨N + slack, fun i => some (.num (junk 0 3 i))⟩) }) (Runs.newArray ⟨rfl, rfl⟩) ?_
  rintro VR h6 ⟨hVR, g6⟩
  refine Runs.bind (R := fun A h' => A = h6.next ∧ h' = { next := h6.next + 1, live := Function.update h6.live h6.next (some ⟨N + slack, fun i => some (.num (junk 1 3 i))⟩) }) (Runs.newArray ⟨rfl, rfl⟩) ?_
  rintro VI h7 ⟨hVI, g7⟩
  have n1 : h1.next = h.next + 1 := by rw [g1]
  have n2 : h2.next = h.next + 2 := by rw [g2]; simp only; omega
  have n3 : h3.next = h.next + 3 := by rw [g3]; simp only; omega
  have n4 : h4.next = h.next + 4 := by rw [g4]; simp only; omega
  have n5 : h5.next = h.next + 5 := by rw [g5]; simp only; omega
  have n6 : h6.next = h.next + 6 := by rw [g6]; simp only; omega
  have n7 : h7.next = h.next + 7 := by rw [g7]; simp only; omega
  have l7 : ∀ x, h7.live x = if x = VI then some ⟨N + slack, fun i => some (.num (junk 1 3 i))⟩ else if x = VR then some ⟨N + slack, fun i => some (.num (junk 0 3 i))⟩ else
      if x = CI then some ⟨M + 1, fun i => some (.num (junk 1 4 i))⟩ else if x = CR then some ⟨M + 1, fun i => some (.num (junk 0 4 i))⟩ else if x = R then some ⟨freqs.length, fun _ => none⟩ else
      if x = F then some ⟨freqs.length, fun i => some (.num (freqs.getD i 0))⟩ else if x = V then some ⟨2 * N, fun w => some (.num (complexWord v w))⟩ else h.live x := by
    intro x
    have s1 : h1.live x = if x = V then some ⟨2 * N, fun w => some (.num (complexWord v w))⟩ else h.live x := by rw [g1, hV]; simp only [Function.update_apply]
    have s2 : h2.live x = if x = F then some ⟨freqs.length, fun i => some (.num (freqs.getD i 0))⟩ else h1.live x := by rw [g2, hF]; simp only [Function.update_apply]
    have s3 : h3.live x = if x = R then some ⟨freqs.length, fun _ => none⟩ else h2.live x := by rw [g3, hR]; simp only [Function.update_apply]
    have s4 : h4.live x = if x = CR then some ⟨M + 1, fun i => some (.num (junk 0 4 i))⟩ else h3.live x := by rw [g4, hCR]; simp only [Function.update_apply]
    have s5 : h5.live x = if x = CI then some ⟨M + 1, fun i => some (.num (junk 1 4 i))⟩ else h4.live x := by rw [g5, hCI]; simp only [Function.update_apply]
    have s6 : h6.live x = if x = VR then some ⟨N + slack, fun i => some (.num (junk 0 3 i))⟩ else h5.live x := by rw [g6, hVR]; simp only [Function.update_apply]
    have s7 : h7.live x = if x = VI then some ⟨N + slack, fun i => some (.num (junk 1 3 i))⟩ else h6.live x := by rw [g7, hVI]; simp only [Function.update_apply]
    rw [s7, s6, s5, s4, s3, s2, s1]
  clear g1 g2 g3 g4 g5 g6 g7
  -- the copy of the two parts
  refine Runs.bind (R := fun _ h' => Rep h' VR dr ∧ Rep h' VI di ∧ Only h7 h' {VR, VI}) ?_ ?_
  · refine Runs.mono (Runs.for (fun k h' => Rep h' VR ⟨N + slack, fun i => if i < k then (v.getD i 0).re else junk 0 3 i⟩ ∧ Rep h' VI ⟨N + slack, fun i => if i < k then (v.getD i 0).im else junk 1 3 i⟩ ∧ Only h7 h' {VR, VI}) N ?_ ?_)
      (fun _ h' hh => hh)
    · refine ⟨?_, ?_, Only.refl _ _⟩
      · unfold Rep
        rw [l7, if_neg (by omega), if_pos rfl]
        simp
      · unfold Rep
        rw [l7, if_pos rfl]
        simp
    · rintro k hk h8 ⟨rr, ri, ho⟩
      have hVl : h8.live V = some ⟨2 * N, fun w => some (.num (complexWord v w))⟩ := by
        rw [ho.2 V (by simp only [Finset.mem_insert, Finset.mem_singleton]; omega), l7, if_neg (by omega), if_neg (by omega), if_neg (by omega), if_neg (by omega), if_neg (by omega), if_neg (by omega), if_pos rfl]
      have upd : ∀ (g : ℕ → ℝ) (j : ℕ → ℝ), Function.update (fun i => if i < k then g i else j i) k (g k) = fun i => if i < k + 1 then g i else j i := by
        intro g j
        funext i
        by_cases hi : i = k
        · subst hi; simp
        · rw [Function.update_of_ne hi]
          by_cases h2 : i < k
          · rw [if_pos h2, if_pos (by omega)]
          · rw [if_neg h2, if_neg (by omega)]
      refine Runs.bind (R := fun x h' => x = (v.getD k 0).re ∧ h' = h8) (Runs.getNum hVl (by simp only; omega) rfl ⟨by unfold complexWord; rw [if_pos (by omega), show 2 * k / 2 = k by omega], rfl⟩) ?_
      rintro x h9 ⟨rfl, rfl⟩
      refine Runs.bind (rr.set (CArr.set_ok (by simp only; omega) _)) ?_
      rintro _ h10 ⟨rr', ho'⟩
      have hVl' : h10.live V = some ⟨2 * N, fun w => some (.num (complexWord v w))⟩ := by rw [ho'.2 V (by simp only [Finset.mem_singleton]; omega), hVl]
      refine Runs.bind (R := fun x h' => x = (v.getD k 0).im ∧ h' = h10) (Runs.getNum hVl' (by simp only; omega) rfl ⟨by unfold complexWord; rw [if_neg (by omega), show (2 * k + 1) / 2 = k by omega], rfl⟩) ?_
      rintro x h11 ⟨rfl, rfl⟩
      refine Runs.mono ((ri.frame ho' (by simp only [Finset.mem_singleton]; omega)).set (CArr.set_ok (by simp only; omega) _)) ?_
      rintro _ h12 ⟨ri', ho''⟩
      refine ⟨?_, ?_, ho.trans ((ho'.mono (by simp)).trans (ho''.mono (by simp)))⟩
      · have := rr'.frame ho'' (by simp only [Finset.mem_singleton]; omega)
        simp only [upd (fun i => (v.getD i 0).re)] at this
        exact this
      · simp only [upd (fun i => (v.getD i 0).im)] at ri'
        exact ri'
  rintro _ h8 ⟨rVR, rVI, o8⟩
  have l8 : ∀ x, x ≠ VI → x ≠ VR → h8.live x = h7.live x := fun x a b => o8.2 x (by simp [a, b])
  have n8 : h8.next = h.next + 7 := by rw [o8.1, n7]
  have w8 : h8.WF := fun b hb => by
    rw [l8 b (by omega) (by omega), l7, if_neg (by omega), if_neg (by omega), if_neg (by omega), if_neg (by omega), if_neg (by omega), if_neg (by omega), if_neg (by omega)]
    exact hw b (by omega)
  have rCR : Rep h8 CR ⟨M + 1, junk 0 4⟩ := by
    unfold Rep
    rw [l8 _ (by omega) (by omega), l7, if_neg (by omega), if_neg (by omega), if_neg (by omega), if_pos rfl]
  have rCI : Rep h8 CI ⟨M + 1, junk 1 4⟩ := by
    unfold Rep
    rw [l8 _ (by omega) (by omega), l7, if_neg (by omega), if_neg (by omega), if_pos rfl]
  refine Runs.bind (getCoefficients_runs w8 (junk 0) N M rVR rCR (by omega) (by omega) (by omega) hcr) ?_
  rintro x h9 ⟨er, hx, w9, n9, rCR9, o9, er0, erM, her⟩
  subst x
  have rVI9 : Rep h9 VI di := (o9 VI (by omega) (by omega)).trans rVI
  have rCI9 : Rep h9 CI ⟨M + 1, junk 1 4⟩ := (o9 CI (by omega) (by omega)).trans rCI
  refine Runs.bind (getCoefficients_runs w9 (junk 1) N M rVI9 rCI9 (by omega) (by omega) (by omega) hci) ?_
  rintro x h10 ⟨ei, hx, w10, n10, rCI10, o10, ei0, eiM, hei⟩
  subst x
  have rCR10 : Rep h10 CR cr := (o10 CR (by omega) (by omega)).trans rCR9
  have l10 : ∀ x, x < h8.next → x ≠ CR → x ≠ CI → h10.live x = h8.live x := fun x hx a b => (o10 x (by omega) b).trans (o9 x hx a)
  -- the frequencies
  refine Runs.bind (R := fun _ h' => PartRes h10 h' R freqs.length freqs.length ps) (Runs.for (fun k h' => PartRes h10 h' R freqs.length k ps) freqs.length ?_ ?_) ?_
  · refine ⟨⟨fun _ => none, ?_, by omega⟩, Only.refl _ _⟩
    rw [l10 R (by omega) (by omega) (by omega), l8 _ (by omega) (by omega), l7, if_neg (by omega), if_neg (by omega), if_neg (by omega), if_neg (by omega), if_pos rfl]
  · rintro k hk h11 ⟨⟨cells, hc, hcv⟩, ho⟩
    have hFl : h11.live F = some ⟨freqs.length, fun i => some (.num (freqs.getD i 0))⟩ := by
      rw [ho.2 F (by simp only [Finset.mem_singleton]; omega), l10 F (by omega) (by omega) (by omega), l8 _ (by omega) (by omega), l7, if_neg (by omega), if_neg (by omega), if_neg (by omega), if_neg (by omega), if_neg (by omega), if_pos rfl]
    obtain ⟨a, ea, eb⟩ := except_bind (hval k hk)
    obtain ⟨b, eb, ec⟩ := except_bind eb
    have ec : (0 + a + b) * dt = ps.getD k 0 := Except.ok.inj ec
    refine Runs.bind (R := fun f h' => f = freqs.getD k 0 ∧ h' = h11) (Runs.getNum hFl hk rfl ⟨rfl, rfl⟩) ?_
    rintro f h12 ⟨e0, e12⟩
    subst f h12
    refine Runs.bind (R := fun _ h' => h' = { h11 with live := Function.update h11.live R (some ⟨freqs.length, Function.update cells k (some (.num 0))⟩) }) (Runs.hwrite hc hk rfl) ?_
    rintro _ h13 e13
    have o13 : Only h11 h13 {R} := ⟨by rw [e13], fun b hb => by
      rw [Finset.mem_singleton] at hb
      rw [e13]; simp only [Function.update_of_ne hb]⟩
    have c13 : h13.live R = some ⟨freqs.length, Function.update cells k (some (.num 0))⟩ := by rw [e13]; simp only [Function.update_self]
    have rr13 : Rep h13 CR cr := (rCR10.frame ho (by simp only [Finset.mem_singleton]; omega)).frame o13 (by simp only [Finset.mem_singleton]; omega)
    have ri13 : Rep h13 CI ci := (rCI10.frame ho (by simp only [Finset.mem_singleton]; omega)).frame o13 (by simp only [Finset.mem_singleton]; omega)
    refine Runs.bind (addTerm_runs rr13 (by omega) c13 hk (Function.update_self ..) ea) ?_
    rintro _ h14 ⟨⟨cells14, c14, v14, u14⟩, o14⟩
    refine Runs.bind (addTerm_runs (ri13.frame o14 (by simp only [Finset.mem_singleton]; omega)) (by omega) c14 hk v14 eb) ?_
    rintro _ h15 ⟨⟨cells15, c15, v15, u15⟩, o15⟩
    refine Runs.bind (R := fun z h' => z = 0 + a + b ∧ h' = h15) (Runs.getNum c15 hk v15 ⟨rfl, rfl⟩) ?_
    rintro z h16 ⟨rfl, rfl⟩
    refine Runs.hwrite c15 hk ⟨⟨Function.update cells15 k (some (.num ((0 + a + b) * dt))), by simp only [Function.update_self], fun i hi => ?_⟩, ?_⟩
    · by_cases hik : i = k
      · subst hik
        simp only [Function.update_self, ec]
      · simp only [Function.update_of_ne hik]
        rw [u15 i hik, u14 i hik, Function.update_of_ne hik]
        exact hcv i (by omega)
    · have oo : Only h10 h16 {R} := ho.trans (o13.trans (o14.trans o15))
      refine ⟨oo.1, fun b hb => ?_⟩
      have hb' := hb
      rw [Finset.mem_singleton] at hb'
      simp only [Function.update_of_ne hb']
      exact oo.2 b hb
  -- the memory that is given back
  rintro _ h11 ⟨hcells, o11⟩
  have l11 : ∀ x, x ≠ R → h11.live x = h10.live x := fun x hx => o11.2 x (by simpa using hx)
  have lV : h11.live V = some ⟨2 * N, fun w => some (.num (complexWord v w))⟩ := by
    rw [l11 _ (by omega), l10 _ (by omega) (by omega) (by omega), l8 _ (by omega) (by omega), l7, if_neg (by omega), if_neg (by omega), if_neg (by omega), if_neg (by omega), if_neg (by omega), if_neg (by omega), if_pos rfl]
  have lF : h11.live F = some ⟨freqs.length, fun i => some (.num (freqs.getD i 0))⟩ := by
    rw [l11 _ (by omega), l10 _ (by omega) (by omega) (by omega), l8 _ (by omega) (by omega), l7, if_neg (by omega), if_neg (by omega), if_neg (by omega), if_neg (by omega), if_neg (by omega), if_pos rfl]
  have lVR : Rep h11 VR dr := (l11 _ (by omega)).trans ((l10 _ (by omega) (by omega) (by omega)).trans rVR)
  have lVI : Rep h11 VI di := (l11 _ (by omega)).trans ((l10 _ (by omega) (by omega) (by omega)).trans rVI)
  have lCR : Rep h11 CR cr := (l11 _ (by omega)).trans rCR10
  have lCI : Rep h11 CI ci := (l11 _ (by omega)).trans rCI10
  refine Runs.bind (Runs.hfree lV (Q := fun _ h' => h' = { h11 with live := Function.update h11.live V none }) rfl) ?_
  rintro _ f1 e1
  have m1 : ∀ x, f1.live x = if x = V then none else h11.live x := fun x => by rw [e1]; simp only [Function.update_apply]
  refine Runs.bind (Runs.hfree (by rw [m1, if_neg (by omega)]; exact lF) (Q := fun _ h' => h' = { f1 with live := Function.update f1.live F none }) rfl) ?_
  rintro _ f2 e2
  have m2 : ∀ x, f2.live x = if x = F then none else f1.live x := fun x => by rw [e2]; simp only [Function.update_apply]
  refine Runs.bind (Runs.hfree (by rw [m2, if_neg (by omega), m1, if_neg (by omega)]; exact lVR) (Q := fun _ h' => h' = { f2 with live := Function.update f2.live VR none }) rfl) ?_
  rintro _ f3 e3
  have m3 : ∀ x, f3.live x = if x = VR then none else f2.live x := fun x => by rw [e3]; simp only [Function.update_apply]
  refine Runs.bind (Runs.hfree (by rw [m3, if_neg (by omega), m2, if_neg (by omega), m1, if_neg (by omega)]; exact lCR) (Q := fun _ h' => h' = { f3 with live := Function.update f3.live CR none }) rfl) ?_
  rintro _ f4 e4
  have m4 : ∀ x, f4.live x = if x = CR then none else f3.live x := fun x => by rw [e4]; simp only [Function.update_apply]
  refine Runs.bind (Runs.hfree (by rw [m4, if_neg (by omega), m3, if_neg (by omega), m2, if_neg (by omega), m1, if_neg (by omega)]; exact lCI) (Q := fun _ h' => h' = { f4 with live := Function.update f4.live CI none }) rfl) ?_
  rintro _ f5 e5
  have m5 : ∀ x, f5.live x = if x = CI then none else f4.live x := fun x => by rw [e5]; simp only [Function.update_apply]
  have keep : ∀ x, x ≠ V → x ≠ F → x ≠ VR → x ≠ CR → x ≠ CI → f5.live x = h11.live x := fun x a b c d e => by
    rw [m5, if_neg e, m4, if_neg d, m3, if_neg c, m2, if_neg b, m1, if_neg a]
  have gone : ∀ x, x = V ∨ x = F ∨ x = VR ∨ x = CR ∨ x = CI → f5.live x = none := fun x hx => by
    rw [m5, m4, m3, m2, m1]
    by_cases a : x = CI
    · rw [if_pos a]
    rw [if_neg a]
    by_cases b : x = CR
    · rw [if_pos b]
    rw [if_neg b]
    by_cases c : x = VR
    · rw [if_pos c]
    rw [if_neg c]
    by_cases d : x = F
    · rw [if_pos d]
    rw [if_neg d, if_pos (by omega)]
  have new10 : ∀ x, h.next + 7 ≤ x → f5.live x = h10.live x := fun x hx => by
    rw [keep x (by omega) (by omega) (by omega) (by omega) (by omega), l11 x (by omega)]
  have size10 : ∀ x, h.next + 7 ≤ x → f5.sizeOf x = h10.sizeOf x := fun x hx => by
    unfold Heap.sizeOf
    rw [new10 x hx]
  have n9' : h9.next = h.next + 10 := by omega
  have new9 : ∀ x, h.next + 7 ≤ x → x < h.next + 10 → f5.live x = h9.live x := fun x hx hx' => by
    rw [new10 x hx, o10 x (by omega) (by omega)]
  have size9 : ∀ x, h.next + 7 ≤ x → x < h.next + 10 → f5.sizeOf x = h9.sizeOf x := fun x hx hx' => by
    unfold Heap.sizeOf
    rw [new9 x hx hx']
  have hRe : R = h.next + 2 := by omega
  have hVIe : VI = h.next + 6 := by omega
  refine Runs.pure ⟨hRe, ?_, ?_, ?_, fun b hb => ?_, fun b hb => ?_, gone _ (by omega), gone _ (by omega), gone _ (by omega), gone _ (by omega), gone _ (by omega), er, ei, er0, ei0, erM, eiM, ?_, ?_⟩
  · obtain ⟨cells, c1, c2⟩ := hcells
    exact ⟨cells, by rw [← hRe, keep R (by omega) (by omega) (by omega) (by omega) (by omega), c1], c2⟩
  · unfold Heap.sizeOf
    rw [← hVIe, keep VI (by omega) (by omega) (by omega) (by omega) (by omega), lVI]
  · rw [← hVIe, keep VI (by omega) (by omega) (by omega) (by omega) (by omega), lVI]
    simp
  · rw [keep b (by omega) (by omega) (by omega) (by omega) (by omega), l11 b (by omega), l10 b (by omega) (by omega) (by omega), l8 b (by omega) (by omega), l7, if_neg (by omega), if_neg (by omega), if_neg (by omega), if_neg (by omega),
      if_neg (by omega), if_neg (by omega), if_neg (by omega)]
  · rw [new10 b (by omega)]
    exact w10 b (by omega)
  · rw [n8] at her
    cases er with
    | true =>
      rw [if_pos rfl] at her ⊢
      rw [size9 _ (by omega) (by omega), size9 _ (by omega) (by omega), size9 _ (by omega) (by omega)]
      exact ⟨her.1, her.2.1, her.2.2.1, fun i hi => by rw [new9 _ (by omega) (by omega)]; exact her.2.2.2 i hi⟩
    | false =>
      rw [if_neg (by simp)] at her ⊢
      exact fun i hi => by rw [new9 _ (by omega) (by omega)]; exact her i hi
  · rw [n9'] at hei
    cases ei with
    | true =>
      rw [if_pos rfl] at hei ⊢
      rw [size10 _ (by omega), size10 _ (by omega), size10 _ (by omega)]
      exact ⟨hei.1, hei.2.1, hei.2.2.1, fun i hi => by rw [new10 _ (by omega)]; exact hei.2.2.2 i hi⟩
    | false =>
      rw [if_neg (by simp)] at hei ⊢
      exact fun i hi => by rw [new10 _ (by omega)]; exact hei i hi

/-- An empty memory is a memory the theorems speak about. -/
theorem empty_wf (K : Type) : (⟨0, fun _ => none⟩ : Heap K).WF := fun _ _ => rfl

/-- Ten atoms of a trajectory of 1000 frames in three dimensions leave 20210 words behind. -/
example (traj : ℕ → ℕ → ℕ → ℚ × ℚ) (pos : ℕ → ℕ → ℚ) (cell : ℕ → ℕ → ℚ) : ∃ h' : Heap ℚ, hRelative 10 1000 3 traj pos cell ⟨0, fun _ => none⟩ = .ok ((), h') ∧ ∃ L : Finset ℕ, L.card = 80 ∧ ∑ b ∈ L, h'.sizeOf b = 20210 := by
  obtain ⟨h', e, -, L, -, h1, h2⟩ := C117_relative_violated (empty_wf ℚ) 10 1000 3 (by norm_num) traj pos cell
  exact ⟨h', e, L, h1, h2⟩

/-- A maximum entropy fit with four coefficients of three steps leaves seven blocks behind and gives a spectrum of zeros. -/
example (junk : ℕ → ℕ → ℕ → ℝ) (a b c : ℂ) : ∃ (R : ℕ) (h' : Heap ℝ), hMem 1 junk [1, 2] [a, b, c] 1 4 ⟨0, fun _ => none⟩ = .ok (R, h') ∧ mem 1 junk [1, 2] [a, b, c] 1 4 = .ok [0, 0] ∧
    ∃ L : Finset ℕ, L.card = 7 ∧ ∑ b ∈ L, h'.sizeOf b = 24 := by
  obtain ⟨R, h', ps, e, e2, -, -, -, er, ei, h1, h2, L, -, h3, h4⟩ := C117_mem (empty_wf ℝ) 1 le_rfl junk [1, 2] [a, b, c] (by simp) 1 4
  have hh := h1 (by simp)
  obtain ⟨rfl, rfl⟩ := hh
  have hl : ps.length = 2 := by
    obtain ⟨_, _, _, _, -, -, -, -, hh⟩ := mem_ok 1 le_rfl junk [1, 2] [a, b, c] (by simp) 1 4
    rw [e2] at hh
    rw [Except.ok.inj hh]
    simp
  obtain ⟨p, q, rfl⟩ := List.length_eq_two.1 hl
  have hp := h2 ⟨rfl, rfl⟩
  refine ⟨R, h', e, by rw [e2, hp p (by simp), hp q (by simp)], L, h3, by simpa using h4⟩

end Verif
